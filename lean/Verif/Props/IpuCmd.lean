import Verif.Model.IpuCmd
import Verif.Proof.Session
import Verif.Props.Ipu

/-! C57 and C58 on command lines: `ipu makeip` and `ipu contains` with options in any order and form. -/

set_option autoImplicit false

namespace Nfqlb.Props

open Nfqlb Nfqlb.Cmd Nfqlb.Spec.Cmd

/-- The value that a command line gives to option `i`: the last one. -/
def lastOf (items : List Item) (i : Nat) : Option Str :=
  (items.filterMap (fun it => match it with | .eq j v => if j = i then some v else none | .sep j v => if j = i then some v else none | _ => none)).getLast?

theorem final_last (opts : List Opt) (items : List Item) (hw : ∀ it ∈ items, it.WF opts) (i : Nat) (o : Opt) (ho : opts[i]? = some o) (ha : o.hasArg = true) (d : Option Str) (hd : o.arg = some d) :
    (finalArg opts (items.filterMap Item.got) i).join = (lastOf items i).or d := by
  have e : (items.filterMap Item.got).filterMap (fun g => match g with | .opt j a => if j = i then some a else none | .bad => none) =
      (items.filterMap (fun it => match it with | .eq j v => if j = i then some v else none | .sep j v => if j = i then some v else none | _ => none)).map some := by
    induction items with
    | nil => rfl
    | cons it items ih =>
      have ih := ih (fun x hx => hw x (List.mem_cons_of_mem _ hx))
      cases it with
      | eq j v => by_cases h : j = i <;> simp [Item.got, h, ih]
      | sep j v => by_cases h : j = i <;> simp [Item.got, h, ih]
      | word w => exact ih
      | flag j =>
        have h : j ≠ i := by
          rintro rfl
          obtain ⟨o', ho', hf⟩ := hw _ List.mem_cons_self
          rw [ho] at ho'
          cases ho'
          rw [ha] at hf
          cases hf
        simpa [Item.got, h] using ih
  have e2 : finalArg opts (items.filterMap Item.got) i = (match (List.map some (items.filterMap (fun it => match it with | .eq j v => if j = i then some v else none | .sep j v => if j = i then some v else none | _ => none))).getLast? with
      | some a => some a
      | none => some d) := by
    unfold finalArg
    rw [ho]
    dsimp only
    rw [hd]
    dsimp only
    exact congrArg (fun l => match List.getLast? l with | some a => some a | none => some d) e
  rw [e2, List.getLast?_map]
  unfold lastOf
  cases (List.filterMap (fun it => match it with | .eq j v => if j = i then some v else none | .sep j v => if j = i then some v else none | _ => none) items).getLast? <;> simp

theorem given_last' (items : List Item) (i : Nat) (v : Str) (h : lastOf items i = some v) : given (items.filterMap Item.got) i = true := by
  unfold lastOf at h
  have hm := List.mem_of_getLast? h
  obtain ⟨it, hit, hv⟩ := List.mem_filterMap.mp hm
  refine List.any_eq_true.mpr ?_
  cases it with
  | eq j w =>
    by_cases e : j = i
    · exact ⟨.opt j (some w), List.mem_filterMap.mpr ⟨_, hit, rfl⟩, by simp [e]⟩
    · simp [e] at hv
  | sep j w =>
    by_cases e : j = i
    · exact ⟨.opt j (some w), List.mem_filterMap.mpr ⟨_, hit, rfl⟩, by simp [e]⟩
    · simp [e] at hv
  | flag j => cases hv
  | word w => cases hv

theorem noHelp_items (opts : List Opt) (h1 : ∀ i, nameAt opts i = "help".toList → i = 0) (h2 : ∀ o, opts[0]? = some o → o.hasArg = false) (items : List Item) (hw : ∀ it ∈ items, it.WF opts) (hf : .flag 0 ∉ items) :
    NoHelp opts (items.filterMap Item.got) := by
  intro i a hm hn
  obtain rfl := h1 i hn
  obtain ⟨it, hit, hg⟩ := List.mem_filterMap.mp hm
  cases it with
  | eq j w =>
    cases hg
    obtain ⟨o, ho, ha⟩ := hw _ hit
    rw [h2 o ho] at ha; cases ha
  | sep j w =>
    cases hg
    obtain ⟨o, ho, ha⟩ := hw _ hit
    rw [h2 o ho] at ha; cases ha
  | flag j => cases hg; exact hf hit
  | word w => cases hg

/-- **C57**, the command line: with `--cidr` and any of the other options, each as `--name=value` or `--name value`, in any order (the last counts when one is repeated), `ipu makeip` does what the theorems about `makeip` say, with
net 0 and host 0 unless given. -/
theorem C57_argv (items : List Item) (hw : ∀ it ∈ items, it.WF makeipOpts) (hf : .flag 0 ∉ items) (cidr : Str) (hc : lastOf items 1 = some cidr) :
    Ipu.makeipArgv ("makeip".toList :: (items.map (Item.render makeipOpts)).flatten) =
      Ipu.makeip ⟨cidr, (lastOf items 2).getD "0".toList, (lastOf items 3).getD "0".toList, lastOf items 4, lastOf items 5⟩ := by
  obtain ⟨vars, n, hp, hv, -⟩ := Session.parse_items makeipOpts (by decide) ⟨by decide +kernel, by decide +kernel⟩ items hw
    (noHelp_items makeipOpts (by
      intro i hi
      match i with
      | 0 => rfl
      | 1 => exact absurd hi (by decide)
      | 2 => exact absurd hi (by decide)
      | 3 => exact absurd hi (by decide)
      | 4 => exact absurd hi (by decide)
      | 5 => exact absurd hi (by decide)
      | i + 6 => exact absurd hi (by simp [nameAt, makeipOpts])) (by rintro o ⟨⟩; rfl) items hw hf)
    (by
      have := given_last' items 1 cidr hc
      simp [missing, makeipOpts, List.range_succ, row, helpOpt, this]) "makeip".toList
  unfold Ipu.makeipArgv
  rw [hp, Res.ok_bind]
  have v1 : valueOf vars "cidr".toList = some cidr := by refine (hv 1 _ rfl).trans ?_; rw [final_last _ _ hw 1 _ rfl rfl none rfl, hc]; rfl
  have v2 : valueOf vars "net".toList = some ((lastOf items 2).getD "0".toList) := by
    refine (hv 2 _ rfl).trans ?_; rw [final_last _ _ hw 2 _ rfl (by decide) (some "0".toList) rfl]; cases lastOf items 2 <;> rfl
  have v3 : valueOf vars "host".toList = some ((lastOf items 3).getD "0".toList) := by
    refine (hv 3 _ rfl).trans ?_; rw [final_last _ _ hw 3 _ rfl (by decide) (some "0".toList) rfl]; cases lastOf items 3 <;> rfl
  have v4 : valueOf vars "subnet".toList = lastOf items 4 := by refine (hv 4 _ rfl).trans ?_; rw [final_last _ _ hw 4 _ rfl rfl none rfl, Option.or_none]
  have v5 : valueOf vars "ipv6template".toList = lastOf items 5 := by refine (hv 5 _ rfl).trans ?_; rw [final_last _ _ hw 5 _ rfl rfl none rfl, Option.or_none]
  simp only [v1, v2, v3, v4, v5]

/-- **C58**, the command line: `ipu contains` takes the last `--cidr` and the first word, wherever it stands; without a word it ends. -/
theorem C58_argv (items : List Item) (hw : ∀ it ∈ items, it.WF Ipu.containsOpts) (hf : .flag 0 ∉ items) (cidr : Str) (hc : lastOf items 1 = some cidr) :
    Ipu.containsArgv ("contains".toList :: (items.map (Item.render Ipu.containsOpts)).flatten) =
      match items.filterMap (fun it => match it with | .word w => some w | _ => none) with
      | [] => .die
      | adr :: _ => Ipu.contains cidr adr := by
  obtain ⟨vars, n, hp, hv, hwd⟩ := Session.parse_items Ipu.containsOpts (by decide) ⟨by decide +kernel, by decide +kernel⟩ items hw
    (noHelp_items Ipu.containsOpts (by
      intro i hi
      match i with
      | 0 => rfl
      | 1 => exact absurd hi (by decide)
      | i + 2 => exact absurd hi (by simp [nameAt, Ipu.containsOpts])) (by rintro o ⟨⟩; rfl) items hw hf)
    (by
      have := given_last' items 1 cidr hc
      simp [missing, Ipu.containsOpts, List.range_succ, row, helpOpt, this]) "contains".toList
  unfold Ipu.containsArgv
  rw [hp, Res.ok_bind]
  have v1 : valueOf vars "cidr".toList = some cidr := by refine (hv 1 _ rfl).trans ?_; rw [final_last _ _ hw 1 _ rfl rfl none rfl, hc]; rfl
  dsimp only
  rw [hwd, v1]
  unfold Session.itemWords
  cases items.filterMap (fun it => match it with | .word w => some w | _ => none) <;> rfl

theorem given_none (opts : List Opt) (items : List Item) (hw : ∀ it ∈ items, it.WF opts) (i : Nat) (o : Opt) (ho : opts[i]? = some o) (ha : o.hasArg = true) (h : lastOf items i = none) : given (items.filterMap Item.got) i = false := by
  unfold lastOf at h
  rw [List.getLast?_eq_none_iff, List.filterMap_eq_nil_iff] at h
  unfold given
  rw [List.any_eq_false]
  intro g hg
  obtain ⟨it, hit, he⟩ := List.mem_filterMap.mp hg
  have h1 := h it hit
  have h2 := hw it hit
  cases it with
  | eq j v =>
    cases he
    simp only [ite_eq_right_iff, reduceCtorEq, imp_false] at h1
    simp [h1]
  | sep j v =>
    cases he
    simp only [ite_eq_right_iff, reduceCtorEq, imp_false] at h1
    simp [h1]
  | flag j =>
    cases he
    obtain ⟨o', h3, h4⟩ := h2
    simp only [beq_iff_eq]
    rintro rfl
    rw [ho] at h3
    cases h3
    rw [ha] at h4
    cases h4
  | word w => cases he

/-- **C57**, the command line without `--cidr` is refused. -/
theorem C57_missing (items : List Item) (hw : ∀ it ∈ items, it.WF makeipOpts) (hf : .flag 0 ∉ items) (hc : lastOf items 1 = none) :
    Ipu.makeipArgv ("makeip".toList :: (items.map (Item.render makeipOpts)).flatten) = .die := by
  unfold Ipu.makeipArgv
  rw [Session.parse_missing makeipOpts (by decide) ⟨by decide +kernel, by decide +kernel⟩ items hw
    (noHelp_items makeipOpts (by
      intro i hi
      match i with
      | 0 => rfl
      | 1 => exact absurd hi (by decide)
      | 2 => exact absurd hi (by decide)
      | 3 => exact absurd hi (by decide)
      | 4 => exact absurd hi (by decide)
      | 5 => exact absurd hi (by decide)
      | i + 6 => exact absurd hi (by simp [nameAt, makeipOpts])) (by rintro o ⟨⟩; rfl) items hw hf)
    (by
      have := given_none makeipOpts items hw 1 _ rfl rfl hc
      simp [missing, makeipOpts, List.range_succ, row, helpOpt, this]) "makeip".toList]
  rfl

/-- **C58**, the command line without `--cidr` is refused. -/
theorem C58_missing (items : List Item) (hw : ∀ it ∈ items, it.WF Ipu.containsOpts) (hf : .flag 0 ∉ items) (hc : lastOf items 1 = none) :
    Ipu.containsArgv ("contains".toList :: (items.map (Item.render Ipu.containsOpts)).flatten) = .die := by
  unfold Ipu.containsArgv
  rw [Session.parse_missing Ipu.containsOpts (by decide) ⟨by decide +kernel, by decide +kernel⟩ items hw
    (noHelp_items Ipu.containsOpts (by
      intro i hi
      match i with
      | 0 => rfl
      | 1 => exact absurd hi (by decide)
      | i + 2 => exact absurd hi (by simp [nameAt, Ipu.containsOpts])) (by rintro o ⟨⟩; rfl) items hw hf)
    (by
      have := given_none Ipu.containsOpts items hw 1 _ rfl rfl hc
      simp [missing, Ipu.containsOpts, List.range_succ, row, helpOpt, this]) "contains".toList]
  rfl

/-! ### The hypotheses can be met -/

/-- Only a dash, which is a word, and no option. -/
example : Ipu.containsArgv ["contains".toList, "-".toList] = .die := C58_missing [.word "-".toList] (by
    intro it h
    rw [List.mem_singleton] at h
    subst h
    exact .inr rfl) (by decide) (by decide)

example : Ipu.makeipArgv ["makeip".toList, "--net=5".toList] = .die := C57_missing [.eq 2 "5".toList] (by
    intro it h
    rw [List.mem_singleton] at h
    subst h
    exact ⟨_, rfl, by decide⟩) (by decide) (by decide)

example : Ipu.makeipArgv ["makeip".toList, "--host".toList, "7".toList, "--cidr=10.1.0.0/16/24".toList, "--net=5".toList] = .ok ⟨[10, 1, 5, 7], none⟩ := by
  have h := C57_argv [.sep 3 "7".toList, .eq 1 "10.1.0.0/16/24".toList, .eq 2 "5".toList] (by
      intro it h
      simp only [List.mem_cons, List.not_mem_nil, or_false] at h
      rcases h with rfl | rfl | rfl <;> exact ⟨_, rfl, by decide⟩) (by decide) "10.1.0.0/16/24".toList (by decide)
  exact h.trans (by decide +kernel)

example : Ipu.containsArgv ["contains".toList, "10.1.2.3".toList, "--cidr=10.1.0.0/16".toList] = .ok 0 := by
  have h := C58_argv [.word "10.1.2.3".toList, .eq 1 "10.1.0.0/16".toList] (by
      intro it h
      simp only [List.mem_cons, List.not_mem_nil, or_false] at h
      rcases h with rfl | rfl
      · exact .inl (by decide : "10.1.2.3".toList.head? ≠ some '-')
      · exact ⟨_, rfl, by decide⟩) (by decide) "10.1.0.0/16".toList (by decide)
  exact h.trans (by decide +kernel)

end Nfqlb.Props
