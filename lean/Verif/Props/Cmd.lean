import Verif.Proof.Cmd
import Verif.Proof.CmdArgv

/-! C55 and C56: commands and options. -/

set_option autoImplicit false

namespace Nfqlb.Props

open Nfqlb Nfqlb.Cmd Nfqlb.Spec.Cmd

/-! ### C55 -/

/-- **C55**, for at most 20 commands: if the names are distinct, each registered command is executed when its name is given, with the arguments that follow; any other name is refused. Missing: more than 20 commands, see
`C55_lost` and `C55_violated`. -/
theorem C55_reachable_partial (regs : List (Str × Nat)) (hl : regs.length ≤ 20) (hd : (regs.map (·.1)).Nodup) :
    ∃ t, addAll empty regs = .ok t ∧
      (∀ c ∈ regs, c.1 ≠ "-h".toList → c.1 ≠ "--help".toList → ∀ prog args, handleCmd t (prog :: c.1 :: args) = .ok (.call c.2 (c.1 :: args))) ∧
      (∀ name, name ∉ regs.map (·.1) → name ≠ "-h".toList → name ≠ "--help".toList → ∀ prog args, handleCmd t (prog :: name :: args) = .ok (.unknown name)) := by
  refine ⟨_, addAll_empty regs, ?_, ?_⟩
  · intro c hc h1 h2 prog args
    simp only [handleCmd]
    rw [if_neg (by simp only [not_or]; exact ⟨h1, h2⟩), List.take_of_length_le hl, search_tableOf _ hl, find_nodup _ hd c hc]
  · intro name hn h1 h2 prog args
    simp only [handleCmd]
    rw [if_neg (by simp only [not_or]; exact ⟨h1, h2⟩), List.take_of_length_le hl, search_tableOf _ hl, find_none _ _ hn]

/-- **C55**, for any number of commands: registering never leaves the table; of the commands with a name, the first one among the first 20 is executed. -/
theorem C55_first (regs : List (Str × Nat)) :
    ∃ t, addAll empty regs = .ok t ∧ ∀ name, name ≠ "-h".toList → name ≠ "--help".toList → ∀ prog args, handleCmd t (prog :: name :: args) =
      .ok (match (regs.take 20).find? (fun c => c.1 == name) with | some c => .call c.2 (name :: args) | none => .unknown name) := by
  refine ⟨_, addAll_empty regs, ?_⟩
  intro name h1 h2 prog args
  simp only [handleCmd]
  rw [if_neg (by simp only [not_or]; exact ⟨h1, h2⟩), search_tableOf _ (by simp; omega)]
  rfl

/-- **C55**, help: without arguments, and for `-h` and `--help`, the names of the first 20 commands are printed, in order. -/
theorem C55_usage (regs : List (Str × Nat)) (argv : List Str) (h : argv.length < 2 ∨ argv[1]? = some "-h".toList ∨ argv[1]? = some "--help".toList) :
    ∃ t, addAll empty regs = .ok t ∧ handleCmd t argv = .ok (.usage ((regs.take 20).map (·.1))) := by
  refine ⟨_, addAll_empty regs, ?_⟩
  have hn : names (tableOf (regs.take 20)) = .ok ((regs.take 20).map (·.1)) := by
    unfold tableOf
    have e : 21 - (regs.take 20).length = (20 - (regs.take 20).length) + 1 := by simp; omega
    rw [e, names_append]
  match argv, h with
  | [], _ => simp only [handleCmd, hn, Res.ok_bind, Res.pure_eq]
  | [_], _ => simp only [handleCmd, hn, Res.ok_bind, Res.pure_eq]
  | _ :: name :: args, h =>
    have : name = "-h".toList ∨ name = "--help".toList := by
      rcases h with h | h | h
      · simp at h; omega
      · exact Or.inl (by simpa using h)
      · exact Or.inr (by simpa using h)
    simp only [handleCmd]
    rw [if_pos this]
    simp only [hn, Res.ok_bind, Res.pure_eq]

/-- **C55** is false for more than 20 commands: the 21st is lost without a message (/repo/src/lib/cmd.c:26), and is unknown when it is given. -/
theorem C55_lost (regs : List (Str × Nat)) (hl : 20 < regs.length) (hd : (regs.map (·.1)).Nodup) (h1 : regs[20].1 ≠ "-h".toList) (h2 : regs[20].1 ≠ "--help".toList) :
    ∃ t, addAll empty regs = .ok t ∧ ∀ prog args, handleCmd t (prog :: regs[20].1 :: args) = .ok (.unknown regs[20].1) := by
  refine ⟨_, addAll_empty regs, ?_⟩
  intro prog args
  simp only [handleCmd]
  rw [if_neg (by simp only [not_or]; exact ⟨h1, h2⟩), search_tableOf _ (by simp; omega), find_none]
  have := behind (regs.map (·.1)) hd (by simpa using hl)
  rw [List.getElem_map] at this
  rw [List.map_take]
  exact this

/-- The names of `nfqlb` are 21, distinct, and none is that of the help. -/
theorem nfqlb_names : nfqlbCommands.flatten.length = 21 ∧ nfqlbCommands.flatten.Nodup ∧ "-h".toList ∉ nfqlbCommands.flatten ∧ "--help".toList ∉ nfqlbCommands.flatten := by
  decide +kernel

/-- **C55** is false for `nfqlb`: in whatever order its 21 commands are registered, one of them is unknown. -/
theorem C55_violated (regs : List (Str × Nat)) (h : (regs.map (·.1)).Perm nfqlbCommands.flatten) :
    ∃ c ∈ regs, ∃ t, addAll empty regs = .ok t ∧ ∀ prog args, handleCmd t (prog :: c.1 :: args) = .ok (.unknown c.1) := by
  obtain ⟨n1, n2, n3, n4⟩ := nfqlb_names
  have hl : 20 < regs.length := by
    have := h.length_eq
    rw [List.length_map] at this
    omega
  have hm : regs[20].1 ∈ nfqlbCommands.flatten := h.mem_iff.mp (List.mem_map_of_mem (List.getElem_mem hl))
  exact ⟨regs[20], List.getElem_mem hl, C55_lost regs hl (h.nodup_iff.mpr n2) (fun e => n3 (e ▸ hm)) (fun e => n4 (e ▸ hm))⟩

/-- In the order of the names of the files, it is the last of cmdTrace.c. -/
theorem C55_violated_sorted (fns : Str → Nat) :
    ∃ t, addAll empty (nfqlbCommands.flatten.map (fun n => (n, fns n))) = .ok t ∧
      ∀ prog args, handleCmd t (prog :: "trace-flow-list-names".toList :: args) = .ok (.unknown "trace-flow-list-names".toList) := by
  have hmap : (nfqlbCommands.flatten.map (fun n => (n, fns n))).map (·.1) = nfqlbCommands.flatten := by
    rw [List.map_map]; exact List.map_id' _
  have hlen : 20 < (nfqlbCommands.flatten.map (fun n => (n, fns n))).length := by rw [List.length_map, nfqlb_names.1]; decide
  have h20 : (nfqlbCommands.flatten.map (fun n => (n, fns n)))[20].1 = "trace-flow-list-names".toList := by
    rw [List.getElem_map]
    have : nfqlbCommands.flatten[20]? = some "trace-flow-list-names".toList := by decide +kernel
    exact (List.getElem?_eq_some_iff.mp this).2
  have := C55_lost _ hlen (by rw [hmap]; exact nfqlb_names.2.1) (by rw [h20]; decide) (by rw [h20]; decide)
  rw [h20] at this
  exact this

/-- **C55** for `ipu`: all five commands are reachable. -/
theorem C55_ipu (fns : Str → Nat) :
    ∃ t, addAll empty (ipuCommands.map (fun n => (n, fns n))) = .ok t ∧
      ∀ name ∈ ipuCommands, ∀ prog args, handleCmd t (prog :: name :: args) = .ok (.call (fns name) (name :: args)) := by
  have hmap : (ipuCommands.map (fun n => (n, fns n))).map (·.1) = ipuCommands := by
    rw [List.map_map]; exact List.map_id' _
  have hd : ipuCommands.length = 5 ∧ ipuCommands.Nodup ∧ "-h".toList ∉ ipuCommands ∧ "--help".toList ∉ ipuCommands := by decide +kernel
  obtain ⟨t, h1, h2, _⟩ := C55_reachable_partial (ipuCommands.map (fun n => (n, fns n))) (by rw [List.length_map, hd.1]; decide) (by rw [hmap]; exact hd.2.1)
  refine ⟨t, h1, fun name hn prog args => ?_⟩
  exact h2 (name, fns name) (List.mem_map_of_mem hn) (fun e => hd.2.2.1 (e ▸ hn)) (fun e => hd.2.2.2 (e ▸ hn)) prog args

example : ((nfqlbCommands.flatten.map (fun n => (n, 0))).map (·.1)).Perm nfqlbCommands.flatten := by
  rw [List.map_map]
  exact (List.map_id' _) ▸ .refl _

example : (([("a".toList, 1), ("b".toList, 2)] : List (Str × Nat)).map (·.1)).Nodup := by decide

example : (do let t ← addAll empty [("a".toList, 1), ("b".toList, 2)]; handleCmd t ["p".toList, "b".toList, "x".toList]) = .ok (.call 2 ["b".toList, "x".toList]) := by decide

/-! ### C56 -/

/-- **C56**, when neither `--help` nor an option that is not in the table (or without its argument) is given: for each table of up to 31 options and whatever is given, `parseOptions` fails iff a required option was not
given, and prints the names of exactly these, in order. If it does not fail, it returns where the options end. Missing: the other cases, see `C56_violated`. -/
theorem C56_required_partial (opts : List Opt) (gots : List Got) (optind : Nat) (hl : opts.length ≤ 31)
    (hf : Fits opts gots) (hb : .bad ∉ gots) (hh : NoHelp opts gots) :
    ∃ p, parseOptions opts gots optind = .ok p ∧ (p.rc = -1 ↔ missing opts gots ≠ []) ∧ p.missing = (missing opts gots).map (nameAt opts) ∧
      (missing opts gots = [] → p.rc = optind) := by
  obtain ⟨p, h1, _, h3, h4⟩ := parseLoop_spec opts optind hl gots [] 0 opts (fun i => by simp [given]) rfl
    (fun i o h => by rw [h]; rfl) hb hf hh
  rw [List.nil_append] at h3 h4
  refine ⟨p, ?_, ?_, h4, fun h => by rw [h3, if_pos h]⟩
  · unfold parseOptions
    rw [if_neg (by omega), h1]
  · rw [h3]
    constructor
    · intro e h
      rw [if_pos h] at e
      omega
    · intro h; rw [if_neg h]

/-- **C56**, the same on the command line: options in the form `--name=value`, `--name value` or `--name`, between other words. Also, each option has its last value in the end, or that of the table; and behind the value
that is returned are as many elements as there are other words. -/
theorem C56_argv_partial (opts : List Opt) (hl : opts.length ≤ 31) (hg : GoodNames opts) (items : List Item) (hw : ∀ it ∈ items, it.WF opts)
    (hh : NoHelp opts (items.filterMap Item.got)) (cmd : Str) :
    ∃ p, parseArgv opts (cmd :: (items.map (Item.render opts)).flatten) = .ok p ∧
      (p.rc = -1 ↔ missing opts (items.filterMap Item.got) ≠ []) ∧ p.missing = (missing opts (items.filterMap Item.got)).map (nameAt opts) ∧
      (∀ i, p.vars[i]?.bind Opt.arg = finalArg opts (items.filterMap Item.got) i) ∧
      (p.rc ≠ -1 → p.rc + (items.filter (fun it => match it with | .word _ => true | _ => false)).length = (cmd :: (items.map (Item.render opts)).flatten).length) := by
  have hf : Fits opts (items.filterMap Item.got) := by
    intro i a hm
    obtain ⟨it, hit, he⟩ := List.mem_filterMap.mp hm
    have := hw it hit
    cases it with
    | eq j v => cases he; obtain ⟨o, ho, _⟩ := this; exact (List.getElem?_eq_some_iff.mp ho).1
    | sep j v => cases he; obtain ⟨o, ho, _⟩ := this; exact (List.getElem?_eq_some_iff.mp ho).1
    | flag j => cases he; obtain ⟨o, ho, _⟩ := this; exact (List.getElem?_eq_some_iff.mp ho).1
    | word w => cases he
  have hb : Got.bad ∉ items.filterMap Item.got := by
    intro hm
    obtain ⟨it, _, he⟩ := List.mem_filterMap.mp hm
    cases it <;> cases he
  have hwords : ∀ (l : List Item), (l.filterMap (fun it => match it with | .word w => some w | _ => none)).length =
      (l.filter (fun it => match it with | .word _ => true | _ => false)).length := by
    intro l
    induction l with
    | nil => rfl
    | cons x l ih => cases x <;> simp [ih]
  have hle : ∀ (l : List Item), (l.filter (fun it => match it with | .word _ => true | _ => false)).length ≤ ((l.map (Item.render opts)).flatten).length := by
    intro l
    induction l with
    | nil => simp
    | cons x l ih => cases x <;> simp [Item.render] at ih ⊢ <;> omega
  unfold parseArgv
  simp only [List.tail_cons, getopt_items opts hg items hw]
  obtain ⟨p, h1, h2, h3, h4⟩ := C56_required_partial opts (items.filterMap Item.got)
    ((cmd :: (items.map (Item.render opts)).flatten).length - (items.filterMap (fun it => match it with | .word w => some w | _ => none)).length) hl hf hb hh
  obtain ⟨q, q1, q2⟩ := parseLoop_vars opts
    ((cmd :: (items.map (Item.render opts)).flatten).length - (items.filterMap (fun it => match it with | .word w => some w | _ => none)).length) hl
    (items.filterMap Item.got) [] 0 opts rfl (fun i o h => by rw [h]; rfl)
    (fun i => (finalArg_nil opts i).symm) hb hf hh
  have hpq : p = q := by
    have e : parseOptions opts (items.filterMap Item.got) ((cmd :: (items.map (Item.render opts)).flatten).length - (items.filterMap (fun it => match it with | .word w => some w | _ => none)).length) = .ok q := by
      unfold parseOptions
      rw [if_neg (by omega), q1]
    rw [h1] at e
    exact Res.ok.inj e
  refine ⟨p, h1, h2, h3, ?_, ?_⟩
  · rw [hpq]; simpa using q2
  · intro hr
    have hm : missing opts (items.filterMap Item.got) = [] := Decidable.byContradiction fun e => hr (h2.mpr e)
    rw [h4 hm, hwords]
    have := hle items
    rw [List.length_cons]
    omega

/-- **C56**, the same with `--` behind these: all elements after it are other words, also those that look like options. -/
theorem C56_dashes_partial (opts : List Opt) (hl : opts.length ≤ 31) (hg : GoodNames opts) (items : List Item) (hw : ∀ it ∈ items, it.WF opts)
    (hh : NoHelp opts (items.filterMap Item.got)) (cmd : Str) (rest : List Str) :
    ∃ p, parseArgv opts (cmd :: (items.map (Item.render opts)).flatten ++ "--".toList :: rest) = .ok p ∧
      (p.rc = -1 ↔ missing opts (items.filterMap Item.got) ≠ []) ∧ p.missing = (missing opts (items.filterMap Item.got)).map (nameAt opts) ∧
      (∀ i, p.vars[i]?.bind Opt.arg = finalArg opts (items.filterMap Item.got) i) ∧
      (p.rc ≠ -1 → p.rc + (items.filter (fun it => match it with | .word _ => true | _ => false)).length + rest.length = (cmd :: (items.map (Item.render opts)).flatten ++ "--".toList :: rest).length) := by
  have hf : Fits opts (items.filterMap Item.got) := by
    intro i a hm
    obtain ⟨it, hit, he⟩ := List.mem_filterMap.mp hm
    have := hw it hit
    cases it with
    | eq j v => cases he; obtain ⟨o, ho, _⟩ := this; exact (List.getElem?_eq_some_iff.mp ho).1
    | sep j v => cases he; obtain ⟨o, ho, _⟩ := this; exact (List.getElem?_eq_some_iff.mp ho).1
    | flag j => cases he; obtain ⟨o, ho, _⟩ := this; exact (List.getElem?_eq_some_iff.mp ho).1
    | word w => cases he
  have hb : Got.bad ∉ items.filterMap Item.got := by
    intro hm
    obtain ⟨it, _, he⟩ := List.mem_filterMap.mp hm
    cases it <;> cases he
  have hwords : ∀ (l : List Item), (l.filterMap (fun it => match it with | .word w => some w | _ => none)).length =
      (l.filter (fun it => match it with | .word _ => true | _ => false)).length := by
    intro l
    induction l with
    | nil => rfl
    | cons x l ih => cases x <;> simp [ih]
  have hle : ∀ (l : List Item), (l.filter (fun it => match it with | .word _ => true | _ => false)).length ≤ ((l.map (Item.render opts)).flatten).length := by
    intro l
    induction l with
    | nil => simp
    | cons x l ih => cases x <;> simp [Item.render] at ih ⊢ <;> omega
  unfold parseArgv
  simp only [List.tail_cons, List.cons_append, getopt_items_app opts hg _ items hw, getopt_end, List.append_nil]
  obtain ⟨p, h1, h2, h3, h4⟩ := C56_required_partial opts (items.filterMap Item.got)
    ((cmd :: (items.map (Item.render opts)).flatten ++ "--".toList :: rest).length - (items.filterMap (fun it => match it with | .word w => some w | _ => none) ++ rest).length) hl hf hb hh
  obtain ⟨q, q1, q2⟩ := parseLoop_vars opts
    ((cmd :: (items.map (Item.render opts)).flatten ++ "--".toList :: rest).length - (items.filterMap (fun it => match it with | .word w => some w | _ => none) ++ rest).length) hl
    (items.filterMap Item.got) [] 0 opts rfl (fun i o h => by rw [h]; rfl)
    (fun i => (finalArg_nil opts i).symm) hb hf hh
  have hpq : p = q := by
    have e : parseOptions opts (items.filterMap Item.got) ((cmd :: (items.map (Item.render opts)).flatten ++ "--".toList :: rest).length - (items.filterMap (fun it => match it with | .word w => some w | _ => none) ++ rest).length) = .ok q := by
      unfold parseOptions
      rw [if_neg (by omega), q1]
    rw [h1] at e
    exact Res.ok.inj e
  refine ⟨p, h1, h2, h3, ?_, ?_⟩
  · rw [hpq]; simpa using q2
  · intro hr
    have hm : missing opts (items.filterMap Item.got) = [] := Decidable.byContradiction fun e => hr (h2.mpr e)
    rw [h4 hm]
    have := hle items
    have hw2 := hwords items
    simp only [List.length_append, List.length_cons] at hw2 ⊢
    omega

/-- **C56**, the other cases: the first option that is not known, or `--help`, decides. -/
theorem C56_bad_or_help (opts : List Opt) (before after : List Got) (optind : Nat) (hl : opts.length ≤ 31)
    (hf : Fits opts before) (hb : .bad ∉ before) (hh : NoHelp opts before) :
    (∃ p, parseOptions opts (before ++ .bad :: after) optind = .ok p ∧ p.rc = -1 ∧ p.missing = [] ∧ p.usage = false) ∧
    ∀ i a, i < opts.length → nameAt opts i = "help".toList → ∃ p, parseOptions opts (before ++ .opt i a :: after) optind = .ok p ∧ p.rc = 0 ∧ p.missing = [] ∧ p.usage = true := by
  have key : ∀ (x : Got) (gs done : List Got) (g : Nat) (vars : List Opt), vars.length = opts.length →
      (∀ (i : Nat) (o : Opt), vars[i]? = some o → opts[i]?.map Opt.name = some o.name) → .bad ∉ gs → Fits opts gs → NoHelp opts gs →
      (x = .bad → ∃ p, parseLoop opts (requiredMask 0 opts) optind (gs ++ x :: after) g vars = .ok p ∧ p.rc = -1 ∧ p.missing = [] ∧ p.usage = false) ∧
      (∀ i a, x = .opt i a → i < opts.length → nameAt opts i = "help".toList →
        ∃ p, parseLoop opts (requiredMask 0 opts) optind (gs ++ x :: after) g vars = .ok p ∧ p.rc = 0 ∧ p.missing = [] ∧ p.usage = true) := by
    intro x gs
    induction gs with
    | nil =>
      intro _ g vars hv hn _ _ _
      refine ⟨?_, ?_⟩
      · rintro rfl
        exact ⟨_, rfl, rfl, rfl, rfl⟩
      · rintro i a rfl hi hname
        simp only [List.nil_append, parseLoop]
        rw [if_neg (by omega)]
        obtain ⟨o, ho⟩ : ∃ o, vars[i]? = some o := ⟨vars[i], List.getElem?_eq_getElem (by omega)⟩
        rw [ho]
        dsimp only
        have : o.name = "help".toList := by
          unfold nameAt at hname
          rw [hn i o ho] at hname
          exact hname
        rw [if_pos this]
        exact ⟨_, rfl, rfl, rfl, rfl⟩
    | cons y gs ih =>
      intro done g vars hv hn hb hf hh
      cases y with
      | bad => exact absurd List.mem_cons_self hb
      | opt j b =>
        have hi := hf j b List.mem_cons_self
        obtain ⟨o, ho⟩ : ∃ o, vars[j]? = some o := ⟨vars[j], List.getElem?_eq_getElem (by omega)⟩
        have hne : o.name ≠ "help".toList := by
          have := hh j b List.mem_cons_self
          unfold nameAt at this
          rw [hn j o ho] at this
          exact this
        have hstep : parseLoop opts (requiredMask 0 opts) optind ((.opt j b :: gs) ++ x :: after) g vars =
            parseLoop opts (requiredMask 0 opts) optind (gs ++ x :: after) (g ||| 1 <<< j) (if o.arg.isSome = true then vars.set j { o with arg := some b } else vars) := by
          simp only [List.cons_append, parseLoop]
          rw [if_neg (by omega), ho]
          dsimp only
          rw [if_neg hne]
        rw [hstep]
        refine ih done _ _ (by split <;> simp [hv]) ?_ (fun hm => hb (List.mem_cons_of_mem _ hm)) (fun k c hm => hf k c (List.mem_cons_of_mem _ hm)) (fun k c hm => hh k c (List.mem_cons_of_mem _ hm))
        intro k o' hk
        split at hk
        · rw [List.getElem?_set] at hk
          split at hk
          · rename_i hij
            subst hij
            split at hk
            · simp only [Option.some.injEq] at hk
              rw [← hk]; exact hn j o ho
            · cases hk
          · exact hn k o' hk
        · exact hn k o' hk
  refine ⟨?_, ?_⟩
  · unfold parseOptions
    rw [if_neg (by omega)]
    exact (key .bad before [] 0 opts rfl (fun i o h => by rw [h]; rfl) hb hf hh).1 rfl
  · intro i a hi hname
    unfold parseOptions
    rw [if_neg (by omega)]
    exact (key (.opt i a) before [] 0 opts rfl (fun i o h => by rw [h]; rfl) hb hf hh).2 i a rfl hi hname

/-- **C56**: more than 31 options are refused. -/
theorem C56_too_many (opts : List Opt) (gots : List Got) (optind : Nat) (hl : 31 < opts.length) : parseOptions opts gots optind = .die := by
  unfold parseOptions
  rw [if_pos (by omega)]

/-- The options of `nfqlb flow-delete` and one more, for examples. -/
def exOpts : List Opt := [⟨"help".toList, none, false⟩, ⟨"name".toList, some none, true⟩, ⟨"lbname".toList, some (some "x".toList), false⟩, ⟨"index".toList, some (some "no".toList), false⟩, ⟨"mark".toList, some none, true⟩]

example : Fits exOpts [.opt 1 (some ['f'])] ∧ Got.bad ∉ [Got.opt 1 (some ['f'])] ∧ NoHelp exOpts [.opt 1 (some ['f'])] ∧ missing exOpts [.opt 1 (some ['f'])] = [4] := by
  refine ⟨?_, by decide, ?_, by decide⟩
  · intro i a h; simp at h; rw [h.1]; decide
  · intro i a h; simp at h; rw [h.1]; decide

example : GoodNames exOpts ∧ ∀ it ∈ [Item.sep 1 ['f'], .word ['w'], .flag 3, .eq 4 ['5'], .eq 1 ['g']], it.WF exOpts := by
  refine ⟨⟨by decide, by decide⟩, ?_⟩
  intro it h
  simp only [List.mem_cons, List.not_mem_nil, or_false] at h
  rcases h with rfl | rfl | rfl | rfl | rfl
  · exact ⟨_, rfl, rfl⟩
  · exact .inl (by decide : (['w'] : Str).head? ≠ some '-')
  · exact ⟨_, rfl, rfl⟩
  · exact ⟨_, rfl, rfl⟩
  · exact ⟨_, rfl, rfl⟩

example : (match parseArgv exOpts (["c", "--name", "f", "w", "--index", "--mark=5", "--name=g"].map String.toList) with | .ok p => decide (p.rc = 6 ∧ p.missing = [] ∧ (p.vars.map Opt.arg) = [none, some (some ['g']), some (some ['x']), some none, some (some ['5'])]) | _ => false) = true := by
  decide +kernel

example : (match parseArgv exOpts (["c", "--name", "f", "w", "--mark=5", "--", "--name=g", "--unknown"].map String.toList) with
    | .ok p => decide (p.rc = 5 ∧ p.missing = [] ∧ (p.vars.map Opt.arg) = [none, some (some ['f']), some (some ['x']), some (some "no".toList), some (some ['5'])]) | _ => false) = true := by
  decide +kernel

/-- **C56** as stated is false: an unknown option makes `parseOptions` fail although no required option is missing; with `--help` it does not fail although required options are missing. (Abbreviated options are accepted.) -/
theorem C56_violated :
    (∃ p, parseArgv exOpts (["c", "--name=f", "--mark=5", "--marc=6"].map String.toList) = .ok p ∧ p.rc = -1 ∧ p.missing = []) ∧
    (∃ p, parseArgv exOpts (["c", "--help"].map String.toList) = .ok p ∧ p.rc = 0) ∧
    (∃ p, parseArgv exOpts (["c", "-n=f", "-m", "5"].map String.toList) = .ok p ∧ p.rc = 4) := by
  have via : ∀ (r : Res Parsed) (f : Parsed → Bool), (match r with | .ok p => f p | _ => false) = true → ∃ p, r = .ok p ∧ f p = true := by
    intro r f h
    cases r with
    | ok p => exact ⟨p, rfl, h⟩
    | die => cases h
    | ub => cases h
    | hang => cases h
  refine ⟨?_, ?_, ?_⟩
  · obtain ⟨p, h1, h2⟩ := via (parseArgv exOpts (["c", "--name=f", "--mark=5", "--marc=6"].map String.toList)) (fun p => decide (p.rc = -1 ∧ p.missing = [])) (by decide +kernel)
    exact ⟨p, h1, of_decide_eq_true h2⟩
  · obtain ⟨p, h1, h2⟩ := via (parseArgv exOpts (["c", "--help"].map String.toList)) (fun p => decide (p.rc = 0)) (by decide +kernel)
    exact ⟨p, h1, of_decide_eq_true h2⟩
  · obtain ⟨p, h1, h2⟩ := via (parseArgv exOpts (["c", "-n=f", "-m", "5"].map String.toList)) (fun p => decide (p.rc = 4)) (by decide +kernel)
    exact ⟨p, h1, of_decide_eq_true h2⟩

end Nfqlb.Props
