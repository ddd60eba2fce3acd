import Verif.Proof.CmdArgv
import Verif.Proof.CmdOpt
import Verif.Model.Options

/-! What the variables of the options hold when `parseOptions` succeeds. -/

set_option autoImplicit false

namespace Nfqlb.Cmd

open Nfqlb Nfqlb.Spec.Cmd

theorem abbrevs_mem (name : Str) : ∀ (opts : List Opt) (k i : Nat) (o : Opt), (i, o) ∈ abbrevs name k opts → k ≤ i ∧ opts[i - k]? = some o
  | [], _, _, _, h => by simp [abbrevs] at h
  | x :: xs, k, i, o, h => by
    have tail : (i, o) ∈ abbrevs name (k + 1) xs → k ≤ i ∧ (x :: xs)[i - k]? = some o := by
      intro h
      obtain ⟨h1, h2⟩ := abbrevs_mem name xs (k + 1) i o h
      refine ⟨by omega, ?_⟩
      rw [show i - k = (i - (k + 1)) + 1 by omega, List.getElem?_cons_succ]
      exact h2
    unfold abbrevs at h
    split at h
    · rcases List.mem_cons.mp h with e | h
      · cases e
        simp
      · exact tail h
    · exact tail h

theorem findOpt_sound (opts : List Opt) (name : Str) (i : Nat) (o : Opt) (h : findOpt opts name = some (i, o)) : opts[i]? = some o := by
  have hm : (i, o) ∈ abbrevs name 0 opts := by
    unfold findOpt at h
    split at h
    · rename_i p hp
      cases h
      exact List.mem_of_find?_eq_some hp
    · split at h
      · rename_i p hp
        cases h
        rw [hp]
        exact List.mem_singleton.mpr rfl
      · cases h
  simpa using (abbrevs_mem name opts 0 i o hm).2

/-- What a report says: an option of the table, with an argument iff it takes one. -/
def Sound (opts : List Opt) (i : Nat) (a : Option Str) : Prop := ∃ o, opts[i]? = some o ∧ a.isSome = o.hasArg

theorem getopt_sound (opts : List Opt) : ∀ (n : Nat) (ss : List Str), ss.length ≤ n → ∀ i a, Got.opt i a ∈ (getopt opts ss).1 → Sound opts i a := by
  intro n
  induction n with
  | zero =>
    intro ss hl i a h
    have : ss = [] := List.length_eq_zero_iff.mp (by omega)
    subst this
    simp [getopt] at h
  | succ n ih =>
    intro ss hl i a h
    cases ss with
    | nil => simp [getopt] at h
    | cons s ss =>
      rw [List.length_cons] at hl
      have ih1 := ih ss (by omega)
      rw [getopt] at h
      split at h
      · simp at h
      · split at h
        · exact ih1 i a h
        · dsimp only at h
          split at h
          · rcases List.mem_cons.mp h with h | h
            · cases h
            · exact ih1 i a h
          · rename_i j o hf
            have hs := findOpt_sound _ _ _ _ hf
            split at h
            · split at h
              · rename_i ha
                rcases List.mem_cons.mp h with h | h
                · cases h
                  exact ⟨o, hs, by rw [ha]; rfl⟩
                · exact ih1 i a h
              · rcases List.mem_cons.mp h with h | h
                · cases h
                · exact ih1 i a h
            · split at h
              · rename_i ha
                cases ss with
                | nil => simp at h
                | cons v ss =>
                  rcases List.mem_cons.mp h with h | h
                  · cases h
                    exact ⟨o, hs, by rw [ha]; rfl⟩
                  · rw [List.length_cons] at hl
                    exact ih ss (by omega) i a h
              · rename_i ha
                rcases List.mem_cons.mp h with h | h
                · cases h
                  refine ⟨o, hs, ?_⟩
                  simpa using ha
                · exact ih1 i a h

theorem getopt_fits (opts : List Opt) (ss : List Str) : Fits opts (getopt opts ss).1 := by
  intro i a h
  obtain ⟨o, ho, _⟩ := getopt_sound opts _ ss (Nat.le_refl _) i a h
  exact (List.getElem?_eq_some_iff.mp ho).1

/-- The variables keep their names. -/
theorem set_names (opts vars : List Opt) (i : Nat) (o : Opt) (a : Option Str) (ho : vars[i]? = some o)
    (hn : vars.map (·.name) = opts.map (·.name)) :
    (if o.arg.isSome = true then vars.set i { o with arg := some a } else vars).map (·.name) = opts.map (·.name) := by
  split
  · rw [List.map_set, ← hn]
    apply List.ext_getElem?
    intro k
    rw [List.getElem?_set]
    split
    · rename_i hik
      subst hik
      split
      · rw [List.getElem?_map, ho]; rfl
      · rename_i h
        rw [List.length_map] at h
        rw [List.getElem?_eq_none (by rw [List.length_map]; omega)]
    · rfl
  · exact hn

/-- Success means that there was no error and no `--help`. -/
theorem parseLoop_pos (opts : List Opt) (req optind : Nat) : ∀ (gs : List Got) (g : Nat) (vars : List Opt) (p : Parsed), vars.map (·.name) = opts.map (·.name) →
    parseLoop opts req optind gs g vars = .ok p → 0 < p.rc → .bad ∉ gs ∧ NoHelp opts gs ∧ p.vars.map (·.name) = opts.map (·.name) := by
  intro gs
  induction gs with
  | nil =>
    intro g vars p hn h hp
    refine ⟨by simp, fun i a h => by simp at h, ?_⟩
    simp only [parseLoop] at h
    split at h <;> cases h <;> exact hn
  | cons x gs ih =>
    intro g vars p hn h hp
    cases x with
    | bad =>
      simp only [parseLoop] at h
      cases h
      exact absurd hp (show ¬ (0 : Int) < -1 by decide)
    | opt i a =>
      simp only [parseLoop] at h
      split at h
      · cases h
        exact absurd hp (show ¬ (0 : Int) < -1 by decide)
      · split at h
        · cases h
        · rename_i o ho
          split at h
          · cases h
            exact absurd hp (show ¬ (0 : Int) < 0 by decide)
          · rename_i hh
            obtain ⟨h1, h2, h3⟩ := ih _ _ p (set_names opts vars i o a ho hn) h hp
            refine ⟨?_, ?_, h3⟩
            · intro hm
              rcases List.mem_cons.mp hm with hm | hm
              · cases hm
              · exact h1 hm
            · intro j b hm
              rcases List.mem_cons.mp hm with hm | hm
              · cases hm
                have : opts[i]?.map (·.name) = some o.name := by
                  rw [← List.getElem?_map, ← hn, List.getElem?_map, ho]; rfl
                unfold nameAt
                rw [this]
                exact hh
              · exact h2 j b hm

/-- **The variables after success.** Each has the last value that was given, or its first one; all required options were given; and a value that was given is NULL only for an option without argument. -/
theorem parseArgv_ok (opts : List Opt) (argv : List Str) (p : Parsed) (h : parseArgv opts argv = .ok p) (hp : 0 < p.rc) :
    opts.length ≤ 31 ∧ p.vars.map (·.name) = opts.map (·.name) ∧
    (∀ i, p.vars[i]?.bind Opt.arg = finalArg opts (getopt opts argv.tail).1 i) ∧ missing opts (getopt opts argv.tail).1 = [] := by
  unfold parseArgv at h
  dsimp only at h
  unfold parseOptions at h
  split at h
  · cases h
  · rename_i hl
    have hl : opts.length ≤ 31 := by omega
    obtain ⟨h1, h2, h3⟩ := parseLoop_pos opts _ _ _ _ _ p rfl h hp
    have hf := getopt_fits opts argv.tail
    obtain ⟨q, q1, _, q3, _⟩ := parseLoop_spec opts (argv.length - (getopt opts argv.tail).2.length) hl (getopt opts argv.tail).1 [] 0 opts (fun i => by simp [given]) rfl
      (fun i o h => by rw [h]; rfl) h1 hf h2
    obtain ⟨r, r1, r2⟩ := parseLoop_vars opts (argv.length - (getopt opts argv.tail).2.length) hl (getopt opts argv.tail).1 [] 0 opts rfl (fun i o h => by rw [h]; rfl)
      (fun i => (finalArg_nil opts i).symm) h1 hf h2
    rw [h] at q1 r1
    cases q1
    cases r1
    refine ⟨hl, h3, by simpa using r2, ?_⟩
    rw [List.nil_append] at q3
    apply Decidable.byContradiction
    intro hne
    rw [if_neg hne] at q3
    omega

/-- An option that takes an argument holds a text, if it is required or begins with one. -/
theorem text_of (opts : List Opt) (argv : List Str) (p : Parsed) (h : parseArgv opts argv = .ok p) (hp : 0 < p.rc) (i : Nat) (o : Opt) (ho : opts[i]? = some o) (ha : o.hasArg = true)
    (hr : o.required = true ∨ o.arg ≠ some none) : ∃ v, p.vars[i]?.bind Opt.arg = some (some v) := by
  obtain ⟨_, _, h3, h4⟩ := parseArgv_ok opts argv p h hp
  rw [h3]
  unfold finalArg
  rw [ho]
  dsimp only
  cases hoa : o.arg with
  | none => rw [Opt.hasArg, hoa] at ha; cases ha
  | some d =>
    dsimp only
    cases hg : ((getopt opts argv.tail).1.filterMap (fun g => match g with | .opt j a => if j = i then some a else none | .bad => none)).getLast? with
    | some a =>
      dsimp only
      have hm := List.mem_of_getLast? hg
      obtain ⟨g, hg1, hg2⟩ := List.mem_filterMap.mp hm
      cases g with
      | bad => cases hg2
      | opt j b =>
        dsimp only at hg2
        split at hg2
        · rename_i hji
          cases hg2
          subst hji
          obtain ⟨o', ho', hb⟩ := getopt_sound opts _ argv.tail (Nat.le_refl _) j a hg1
          rw [ho] at ho'
          cases ho'
          rw [ha] at hb
          obtain ⟨v, hv⟩ := Option.isSome_iff_exists.mp hb
          exact ⟨v, by rw [hv]⟩
        · cases hg2
    | none =>
      dsimp only
      cases d with
      | some v => exact ⟨v, rfl⟩
      | none =>
        rcases hr with hr | hr
        · exfalso
          have hnil : (getopt opts argv.tail).1.filterMap (fun g => match g with | .opt j a => if j = i then some a else none | .bad => none) = [] := List.getLast?_eq_none_iff.mp hg
          have hng : given (getopt opts argv.tail).1 i = false := by
            unfold given
            rw [List.any_eq_false]
            intro g hg1
            cases g with
            | bad => simp
            | opt j a =>
              have := List.filterMap_eq_nil_iff.mp hnil _ hg1
              dsimp only at this
              split at this
              · cases this
              · rename_i hne; simpa using hne
          have : i ∈ missing opts (getopt opts argv.tail).1 := by
            unfold missing
            rw [List.mem_filter]
            refine ⟨List.mem_range.mpr (List.getElem?_eq_some_iff.mp ho).1, ?_⟩
            rw [ho, hng]
            simpa using hr
          rw [h4] at this
          cases this
        · exact absurd hoa hr

/-- Of variables with distinct names, by index. -/
theorem valueOf_index (vars : List Opt) (hd : (vars.map (·.name)).Nodup) (i : Nat) (o : Opt) (ho : vars[i]? = some o) : valueOf vars o.name = o.arg.join := by
  unfold valueOf
  have : vars.find? (fun x => x.name == o.name) = some o := by
    induction vars generalizing i with
    | nil => simp at ho
    | cons x xs ih =>
      rw [List.map_cons, List.nodup_cons] at hd
      cases i with
      | zero =>
        simp only [List.getElem?_cons_zero, Option.some.injEq] at ho
        subst ho
        simp
      | succ i =>
        rw [List.getElem?_cons_succ] at ho
        have hne : x.name ≠ o.name := fun e => hd.1 (e ▸ List.mem_map_of_mem (List.mem_of_getElem? ho))
        rw [List.find?_cons_of_neg (by simpa using hne)]
        exact ih hd.2 i ho
  rw [this]

/-- With reports that fit the table there is no undefined behaviour. -/
theorem parseLoop_def (opts : List Opt) (req optind : Nat) : ∀ (gs : List Got) (g : Nat) (vars : List Opt), vars.length = opts.length → Fits opts gs →
    ∃ p, parseLoop opts req optind gs g vars = .ok p := by
  intro gs
  induction gs with
  | nil => intro g vars _ _; simp only [parseLoop]; split <;> exact ⟨_, rfl⟩
  | cons x gs ih =>
    intro g vars hl hf
    cases x with
    | bad => exact ⟨_, rfl⟩
    | opt i a =>
      simp only [parseLoop]
      split
      · exact ⟨_, rfl⟩
      · have hi := hf i a List.mem_cons_self
        rw [List.getElem?_eq_getElem (by omega : i < vars.length)]
        dsimp only
        split
        · exact ⟨_, rfl⟩
        · exact ih _ _ (by split <;> simp [hl]) (fun k c hm => hf k c (List.mem_cons_of_mem _ hm))

theorem parseArgv_def (opts : List Opt) (hl : opts.length ≤ 31) (argv : List Str) : ∃ p, parseArgv opts argv = .ok p := by
  unfold parseArgv
  dsimp only
  unfold parseOptions
  rw [if_neg (by omega)]
  exact parseLoop_def opts _ _ _ _ _ rfl (getopt_fits opts argv.tail)

theorem parseOrDie_ok {opts : List Opt} {argv : List Str} {vars : List Opt} {n : Nat} (h : parseOrDie opts argv = .ok (vars, n)) :
    ∃ p, parseArgv opts argv = .ok p ∧ 0 < p.rc ∧ p.vars = vars ∧ p.rc = n := by
  unfold parseOrDie at h
  cases hp : parseArgv opts argv with
  | ok p =>
    rw [hp, Res.ok_bind] at h
    split at h
    · rename_i hr
      cases h
      exact ⟨p, rfl, hr, rfl, by omega⟩
    · cases h
  | die => rw [hp, Res.die_bind] at h; cases h
  | ub => rw [hp, Res.ub_bind] at h; cases h
  | hang => rw [hp, Res.hang_bind] at h; cases h

/-- The value by name is the one by index. -/
theorem value_index {opts : List Opt} {argv : List Str} {vars : List Opt} {n : Nat} (hd : (opts.map (·.name)).Nodup) (h : parseOrDie opts argv = .ok (vars, n)) {i : Nat} {o : Opt}
    (ho : opts[i]? = some o) : valueOf vars o.name = (finalArg opts (getopt opts argv.tail).1 i).join := by
  obtain ⟨p, h1, h2, h3, _⟩ := parseOrDie_ok h
  obtain ⟨_, q2, q3, _⟩ := parseArgv_ok opts argv p h1 h2
  rw [h3] at q2 q3
  have hi : i < vars.length := by
    have := congrArg List.length q2
    rw [List.length_map, List.length_map] at this
    rw [this]
    exact (List.getElem?_eq_some_iff.mp ho).1
  have hn : vars[i].name = o.name := by
    have := congrArg (fun l => l[i]?) q2
    rw [List.getElem?_map, List.getElem?_map, ho, List.getElem?_eq_getElem hi] at this
    simpa using this
  rw [← hn, valueOf_index vars (by rw [q2]; exact hd) i vars[i] (List.getElem?_eq_getElem hi), ← q3 i, List.getElem?_eq_getElem hi]
  rfl

/-- A report of an option with a value. -/
theorem given_last (opts : List Opt) (gots : List Got) (hs : ∀ i a, Got.opt i a ∈ gots → Sound opts i a) (i : Nat) (o : Opt) (ho : opts[i]? = some o) :
    (given gots i = false ∧ (gots.filterMap (fun g => match g with | .opt j a => if j = i then some a else none | .bad => none)).getLast? = none) ∨
    (given gots i = true ∧ ∃ a, (gots.filterMap (fun g => match g with | .opt j a => if j = i then some a else none | .bad => none)).getLast? = some a ∧ a.isSome = o.hasArg) := by
  cases hg : (gots.filterMap (fun g => match g with | .opt j a => if j = i then some a else none | .bad => none)).getLast? with
  | none =>
    left
    refine ⟨?_, rfl⟩
    have hnil := List.getLast?_eq_none_iff.mp hg
    unfold given
    rw [List.any_eq_false]
    intro g hg1
    cases g with
    | bad => simp
    | opt j a =>
      have := List.filterMap_eq_nil_iff.mp hnil _ hg1
      dsimp only at this
      split at this
      · cases this
      · rename_i hne; simpa using hne
  | some a =>
    right
    obtain ⟨g, hg1, hg2⟩ := List.mem_filterMap.mp (List.mem_of_getLast? hg)
    cases g with
    | bad => cases hg2
    | opt j b =>
      dsimp only at hg2
      split at hg2
      · rename_i hji
        cases hg2
        subst hji
        refine ⟨?_, a, rfl, ?_⟩
        · unfold given
          rw [List.any_eq_true]
          exact ⟨_, hg1, by simp⟩
        · obtain ⟨o', ho', hb⟩ := hs j a hg1
          rw [ho] at ho'
          cases ho'
          exact hb
      · cases hg2

theorem finalArg_cases (opts : List Opt) (gots : List Got) (hs : ∀ i a, Got.opt i a ∈ gots → Sound opts i a) (i : Nat) (o : Opt) (ho : opts[i]? = some o) (d : Option Str) (hd : o.arg = some d) :
    (given gots i = false ∧ finalArg opts gots i = some d) ∨ (given gots i = true ∧ ∃ a, finalArg opts gots i = some a ∧ a.isSome = o.hasArg) := by
  have hl := given_last opts gots hs i o ho
  unfold finalArg
  rw [ho]
  dsimp only
  rw [hd]
  dsimp only
  split
  · rename_i a e
    right
    rcases hl with ⟨_, h2⟩ | ⟨h1, b, h2, h3⟩
    · exact absurd (e.symm.trans h2) (by simp)
    · cases e.symm.trans h2
      exact ⟨h1, a, rfl, h3⟩
  · rename_i e
    left
    rcases hl with ⟨h1, _⟩ | ⟨_, b, h2, _⟩
    · exact ⟨h1, rfl⟩
    · exact absurd (e.symm.trans h2) (by simp)

end Nfqlb.Cmd
