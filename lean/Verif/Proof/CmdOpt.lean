import Verif.Spec.Cmd

/-! Lemmas about options. -/

set_option autoImplicit false

namespace Nfqlb.Cmd

open Nfqlb Nfqlb.Spec.Cmd

theorem testBit_one_shift (i j : Nat) : (1 <<< i).testBit j = decide (i = j) := by
  rw [Nat.one_shiftLeft, Nat.testBit_two_pow]

theorem requiredMask_bit (opts : List Opt) : ∀ (k i : Nat),
    (requiredMask k opts).testBit i = (decide (k ≤ i) && ((opts[i - k]?.map (·.required)).getD false)) := by
  induction opts with
  | nil => intro k i; simp [requiredMask]
  | cons o os ih =>
    intro k i
    simp only [requiredMask, Nat.testBit_or, ih]
    by_cases hk : k = i
    · subst hk
      by_cases ho : o.required = true
      · simp [ho]
      · simp [ho]; omega
    · have h1 : ((if o.required = true then 1 <<< k else 0).testBit i) = false := by
        split
        · rw [testBit_one_shift]; simpa using hk
        · simp
      rw [h1, Bool.false_or]
      by_cases hlt : k < i
      · have e : i - k = (i - (k + 1)) + 1 := by omega
        rw [e, List.getElem?_cons_succ]
        have : decide (k + 1 ≤ i) = decide (k ≤ i) := by simp; omega
        rw [this]
      · have h2 : decide (k + 1 ≤ i) = false := by simp; omega
        have h3 : decide (k ≤ i) = false := by simp; omega
        rw [h2, h3]; rfl

theorem and_shift (a i : Nat) : a &&& (1 <<< i) = if a.testBit i then 1 <<< i else 0 := by
  apply Nat.eq_of_testBit_eq
  intro j
  rw [Nat.testBit_and, testBit_one_shift]
  by_cases h : i = j
  · subst h
    by_cases ha : a.testBit i = true
    · simp [ha]
    · simp [ha]
  · by_cases ha : a.testBit i = true
    · rw [if_pos ha, testBit_one_shift]; simp [h]
    · rw [if_neg ha]; simp [h]

theorem and_shift_ne (a b i : Nat) : (a &&& (1 <<< i) ≠ b &&& (1 <<< i)) ↔ (a.testBit i != b.testBit i) = true := by
  rw [and_shift, and_shift]
  have h0 : (1 <<< i : Nat) ≠ 0 := by rw [Nat.one_shiftLeft]; exact Nat.ne_of_gt (Nat.two_pow_pos i)
  cases a.testBit i <;> cases b.testBit i <;> simp
  · exact fun e => h0 (by rw [Nat.one_shiftLeft]; omega)
  all_goals first | exact h0 | skip

theorem missingFrom_eq (opts : List Opt) (r g : Nat) (fuel : Nat) : ∀ i, missingFrom opts r g i fuel =
    ((List.range' i fuel).filter (fun j => r.testBit j != g.testBit j)).map (nameOf 0 opts) := by
  induction fuel with
  | zero => intro i; rfl
  | succ fuel ih =>
    intro i
    simp only [missingFrom, ih, List.range'_succ]
    by_cases h : (r.testBit i != g.testBit i) = true
    · rw [if_pos ((and_shift_ne r g i).mpr h), List.filter_cons_of_pos (p := fun j => r.testBit j != g.testBit j) h, List.map_cons, List.singleton_append]
    · rw [if_neg (fun e => h ((and_shift_ne r g i).mp e)), List.filter_cons_of_neg (p := fun j => r.testBit j != g.testBit j) h, List.nil_append]

theorem nameOf_cons (o : Opt) (os : List Opt) (k i : Nat) : nameOf k (o :: os) i = if k = i then o.name else nameOf (k + 1) os i := rfl

theorem nameAt_zero (o : Opt) (os : List Opt) : nameAt (o :: os) 0 = o.name := rfl

theorem nameAt_succ (o : Opt) (os : List Opt) (i : Nat) : nameAt (o :: os) (i + 1) = nameAt os i := by
  unfold nameAt; rw [List.getElem?_cons_succ]

theorem nameOf_eq : ∀ (opts : List Opt) (k d : Nat), d < opts.length → nameOf k opts (k + d) = nameAt opts d
  | [], k, d, h => absurd h (Nat.not_lt_zero d)
  | o :: os, k, 0, _ => by rw [nameOf_cons, Nat.add_zero, if_pos rfl, nameAt_zero]
  | o :: os, k, d + 1, h => by
    rw [nameOf_cons, if_neg (by omega), nameAt_succ, ← nameOf_eq os (k + 1) d (Nat.lt_of_succ_lt_succ h)]
    congr 1
    omega

/-- The bits of `got` are the options that were given. -/
def GotBits (g : Nat) (gots : List Got) : Prop := ∀ i, g.testBit i = given gots i

theorem missing_names (opts : List Opt) (gots : List Got) (g : Nat) (hg : GotBits g gots) (hl : opts.length ≤ 32) :
    missingFrom opts (requiredMask 0 opts) (g &&& requiredMask 0 opts) 0 32 = (missing opts gots).map (nameAt opts) := by
  rw [missingFrom_eq]
  have e : 32 = opts.length + (32 - opts.length) := by omega
  rw [e, ← List.range'_append, List.filter_append]
  have hb : ∀ j, ((requiredMask 0 opts).testBit j != (g &&& requiredMask 0 opts).testBit j) =
      ((opts[j]?.map (·.required)).getD false && !given gots j) := by
    intro j
    rw [Nat.testBit_and, hg j, requiredMask_bit]
    simp only [Nat.zero_le, decide_true, Bool.true_and, Nat.sub_zero]
    cases ((opts[j]?.map (·.required)).getD false) <;> cases given gots j <;> rfl
  simp only [hb]
  have h2 : (List.range' (0 + 1 * opts.length) (32 - opts.length)).filter (fun j => ((opts[j]?.map (·.required)).getD false && !given gots j)) = [] := by
    rw [List.filter_eq_nil_iff]
    intro j hj
    have := List.mem_range'_1.mp hj
    rw [List.getElem?_eq_none (by omega)]
    simp
  rw [h2, List.append_nil, ← List.range_eq_range']
  unfold missing
  apply List.map_congr_left
  intro j hj
  have := List.mem_range.mp (List.mem_filter.mp hj).1
  have := nameOf_eq opts 0 j (by omega)
  rwa [Nat.zero_add] at this

theorem verify_zero (opts : List Opt) (gots : List Got) (g : Nat) (hg : GotBits g gots) :
    (requiredMask 0 opts = g &&& requiredMask 0 opts) ↔ missing opts gots = [] := by
  unfold missing
  rw [List.filter_eq_nil_iff]
  constructor
  · intro h i _
    have := congrArg (fun x => x.testBit i) h
    simp only [Nat.testBit_and, hg i, requiredMask_bit, Nat.zero_le, decide_true, Bool.true_and, Nat.sub_zero] at this
    revert this
    cases ((opts[i]?.map (·.required)).getD false) <;> cases given gots i <;> simp
  · intro h
    apply Nat.eq_of_testBit_eq
    intro i
    rw [Nat.testBit_and, hg i, requiredMask_bit]
    simp only [Nat.zero_le, decide_true, Bool.true_and, Nat.sub_zero]
    by_cases hi : i < opts.length
    · have := h i (List.mem_range.mpr hi)
      revert this
      cases ((opts[i]?.map (·.required)).getD false) <;> cases given gots i <;> simp
    · rw [List.getElem?_eq_none (by omega)]
      simp

theorem gotBits_cons (g : Nat) (gs : List Got) (i : Nat) (a : Option Str) (h : GotBits g gs) : GotBits (g ||| 1 <<< i) (gs ++ [.opt i a]) := by
  intro j
  rw [Nat.testBit_or, h j, testBit_one_shift]
  simp [given, List.any_append, Bool.beq_eq_decide_eq]

/-- The variables only differ in their values. -/
def SameNames (vars opts : List Opt) : Prop := vars.length = opts.length ∧ ∀ i, nameAt vars i = nameAt opts i

theorem parseLoop_spec (opts : List Opt) (optind : Nat) (hl : opts.length ≤ 31) : ∀ (gs done : List Got) (g : Nat) (vars : List Opt),
    GotBits g done → vars.length = opts.length → (∀ (i : Nat) (o : Opt), vars[i]? = some o → opts[i]?.map Opt.name = some o.name) →
    .bad ∉ gs → Fits opts gs → NoHelp opts gs →
    ∃ p, parseLoop opts (requiredMask 0 opts) optind gs g vars = .ok p ∧ p.usage = false ∧
      p.rc = (if missing opts (done ++ gs) = [] then (optind : Int) else -1) ∧ p.missing = (missing opts (done ++ gs)).map (nameAt opts) := by
  intro gs
  induction gs with
  | nil =>
    intro done g vars hg _ _ _ _ _
    simp only [parseLoop, List.append_nil]
    by_cases h : requiredMask 0 opts = g &&& requiredMask 0 opts
    · have hv : verifyRequiredOptions opts (requiredMask 0 opts) g = (0, []) := by
        unfold verifyRequiredOptions; dsimp only; rw [if_pos h]
      have hm := (verify_zero opts done g hg).mp h
      simp only [hv]
      exact ⟨_, rfl, rfl, by simp [hm], by simp [hm]⟩
    · have hv : verifyRequiredOptions opts (requiredMask 0 opts) g = (-1, (missing opts done).map (nameAt opts)) := by
        unfold verifyRequiredOptions; dsimp only; rw [if_neg h, missing_names opts done g hg (by omega)]
      have hm : missing opts done ≠ [] := fun e => h ((verify_zero opts done g hg).mpr e)
      simp only [hv]
      exact ⟨_, rfl, rfl, by simp [hm], rfl⟩
  | cons x gs ih =>
    intro done g vars hg hv hn hb hf hh
    cases x with
    | bad => exact absurd List.mem_cons_self hb
    | opt i a =>
      have hi := hf i a List.mem_cons_self
      simp only [parseLoop]
      rw [if_neg (by omega)]
      obtain ⟨o, ho⟩ : ∃ o, vars[i]? = some o := ⟨vars[i], List.getElem?_eq_getElem (by omega)⟩
      rw [ho]
      dsimp only
      have hnm := hn i o ho
      have : o.name ≠ "help".toList := by
        have := hh i a List.mem_cons_self
        unfold nameAt at this
        rw [hnm] at this
        exact this
      rw [if_neg this]
      have := ih (done ++ [.opt i a]) (g ||| 1 <<< i) (if o.arg.isSome = true then vars.set i { o with arg := some a } else vars)
        (gotBits_cons g done i a hg) (by split <;> simp [hv]) ?_ (fun hm => hb (List.mem_cons_of_mem _ hm))
        (fun j b hm => hf j b (List.mem_cons_of_mem _ hm)) (fun j b hm => hh j b (List.mem_cons_of_mem _ hm))
      · simpa using this
      · intro j o' hj
        split at hj
        · rw [List.getElem?_set] at hj
          split at hj
          · rename_i hij
            subst hij
            split at hj
            · simp only [Option.some.injEq] at hj
              rw [← hj]; exact hnm
            · cases hj
          · exact hn j o' hj
        · exact hn j o' hj

end Nfqlb.Cmd
