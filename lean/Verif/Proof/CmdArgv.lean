import Verif.Proof.CmdOpt

/-! Lemmas about the values of options, and about the elements of `argv`. -/

set_option autoImplicit false

namespace Nfqlb.Cmd

open Nfqlb Nfqlb.Spec.Cmd

theorem finalArg_snoc (opts : List Opt) (gs : List Got) (i j : Nat) (a : Option Str) :
    finalArg opts (gs ++ [.opt i a]) j = if i = j then (opts[j]?.bind Opt.arg).map (fun _ => a) else finalArg opts gs j := by
  unfold finalArg
  cases ho : opts[j]? with
  | none => simp
  | some o =>
    dsimp only [Option.bind_some]
    cases ha : o.arg with
    | none => simp
    | some d =>
      dsimp only
      rw [List.filterMap_append]
      by_cases h : i = j
      · simp [h]
      · simp [h]

theorem finalArg_nil (opts : List Opt) (i : Nat) : finalArg opts [] i = opts[i]?.bind Opt.arg := by
  unfold finalArg
  cases opts[i]? with
  | none => rfl
  | some o =>
    dsimp only [Option.bind_some]
    cases h : o.arg with
    | none => rfl
    | some d => rfl

theorem parseLoop_vars (opts : List Opt) (optind : Nat) (hl : opts.length ≤ 31) : ∀ (gs done : List Got) (g : Nat) (vars : List Opt),
    vars.length = opts.length → (∀ (i : Nat) (o : Opt), vars[i]? = some o → opts[i]?.map Opt.name = some o.name) →
    (∀ i, vars[i]?.bind Opt.arg = finalArg opts done i) →
    .bad ∉ gs → Fits opts gs → NoHelp opts gs →
    ∃ p, parseLoop opts (requiredMask 0 opts) optind gs g vars = .ok p ∧ ∀ i, p.vars[i]?.bind Opt.arg = finalArg opts (done ++ gs) i := by
  intro gs
  induction gs with
  | nil =>
    intro done g vars _ _ hi _ _ _
    simp only [parseLoop, List.append_nil]
    split
    · exact ⟨_, rfl, hi⟩
    · exact ⟨_, rfl, hi⟩
  | cons x gs ih =>
    intro done g vars hv hn hfin hb hf hh
    cases x with
    | bad => exact absurd List.mem_cons_self hb
    | opt i a =>
      have hi := hf i a List.mem_cons_self
      simp only [parseLoop]
      rw [if_neg (by omega)]
      obtain ⟨o, ho⟩ : ∃ o, vars[i]? = some o := ⟨vars[i], List.getElem?_eq_getElem (by omega)⟩
      rw [ho]
      dsimp only
      have hnm := hn i o ho
      have hne : o.name ≠ "help".toList := by
        have := hh i a List.mem_cons_self
        unfold nameAt at this
        rw [hnm] at this
        exact this
      rw [if_neg hne]
      have hfi := hfin i
      rw [ho] at hfi
      have hsome : (opts[i]?.bind Opt.arg).isSome = o.arg.isSome := by
        have e : (finalArg opts done i).isSome = (opts[i]?.bind Opt.arg).isSome := by
          unfold finalArg
          cases opts[i]? with
          | none => rfl
          | some o' =>
            dsimp only [Option.bind_some]
            cases o'.arg with
            | none => rfl
            | some d => dsimp only; split <;> rfl
        rw [← e, ← hfi]
        rfl
      have := ih (done ++ [.opt i a]) (g ||| 1 <<< i) (if o.arg.isSome = true then vars.set i { o with arg := some a } else vars)
        (by split <;> simp [hv]) ?_ ?_ (fun hm => hb (List.mem_cons_of_mem _ hm))
        (fun j b hm => hf j b (List.mem_cons_of_mem _ hm)) (fun j b hm => hh j b (List.mem_cons_of_mem _ hm))
      · simpa using this
      · intro j o' hj
        split at hj
        · rw [List.getElem?_set] at hj
          split at hj
          · rename_i hij
            subst hij
            split at hj
            · simp only [Option.some.injEq] at hj
              rw [← hj]; exact hnm
            · cases hj
          · exact hn j o' hj
        · exact hn j o' hj
      · intro j
        rw [finalArg_snoc]
        by_cases hij : i = j
        · subst hij
          rw [if_pos rfl]
          by_cases hs : o.arg.isSome = true
          · rw [if_pos hs, List.getElem?_set_self (by omega)]
            rw [hs] at hsome
            obtain ⟨d, hd⟩ := Option.isSome_iff_exists.mp hsome
            rw [hd]
            rfl
          · rw [if_neg hs, ho]
            have h1 : o.arg = none := by cases h : o.arg with | none => rfl | some => rw [h] at hs; exact absurd rfl hs
            rw [h1] at hsome
            cases hd : opts[i]?.bind Opt.arg with
            | none => simpa using h1
            | some d => rw [hd] at hsome; cases hsome
        · rw [if_neg hij, ← hfin j]
          split
          · rw [List.getElem?_set_ne hij]
          · rfl

theorem abbrevs_find (name : Str) : ∀ (opts : List Opt) (k i : Nat) (o : Opt), (opts.map (·.name)).Nodup → opts[i]? = some o → o.name = name →
    (abbrevs name k opts).find? (fun p => p.2.name == name) = some (k + i, o)
  | [], _, _, _, _, h, _ => by simp at h
  | x :: xs, k, 0, o, _, h, hn => by
    simp only [List.getElem?_cons_zero, Option.some.injEq] at h
    subst h
    subst hn
    simp only [abbrevs]
    rw [if_pos (by simp), List.find?_cons_of_pos (by simp)]
    rfl
  | x :: xs, k, i + 1, o, hd, h, hn => by
    rw [List.getElem?_cons_succ] at h
    rw [List.map_cons, List.nodup_cons] at hd
    have ih := abbrevs_find name xs (k + 1) i o hd.2 h hn
    have hx : x.name ≠ name := fun e => hd.1 (by rw [e, ← hn]; exact List.mem_map_of_mem (List.mem_of_getElem? h))
    have e : k + 1 + i = k + (i + 1) := by omega
    simp only [abbrevs]
    split
    · rw [List.find?_cons_of_neg (by simpa using hx), ih, e]
    · rw [ih, e]

theorem findOpt_exact (opts : List Opt) (i : Nat) (o : Opt) (hd : (opts.map (·.name)).Nodup) (h : opts[i]? = some o) : findOpt opts o.name = some (i, o) := by
  unfold findOpt
  rw [abbrevs_find o.name opts 0 i o hd h rfl, Nat.zero_add]

theorem takeWhile_name (n r : Str) (h : '=' ∉ n) : (n ++ '=' :: r).takeWhile (· != '=') = n := by
  induction n with
  | nil => rfl
  | cons c n ih =>
    rw [List.mem_cons] at h
    have hc : (c != '=') = true := by simpa using fun e => h (Or.inl e.symm)
    rw [List.cons_append, List.takeWhile_cons_of_pos (p := (· != '=')) hc, ih (fun hm => h (Or.inr hm))]

theorem dropWhile_name (n r : Str) (h : '=' ∉ n) : (n ++ '=' :: r).dropWhile (· != '=') = '=' :: r := by
  induction n with
  | nil => rfl
  | cons c n ih =>
    rw [List.mem_cons] at h
    have hc : (c != '=') = true := by simpa using fun e => h (Or.inl e.symm)
    rw [List.cons_append, List.dropWhile_cons_of_pos (p := (· != '=')) hc, ih (fun hm => h (Or.inr hm))]

theorem takeWhile_all (n : Str) (h : '=' ∉ n) : n.takeWhile (· != '=') = n := by
  induction n with
  | nil => rfl
  | cons c n ih =>
    rw [List.mem_cons] at h
    have hc : (c != '=') = true := by simpa using fun e => h (Or.inl e.symm)
    rw [List.takeWhile_cons_of_pos (p := (· != '=')) hc, ih (fun hm => h (Or.inr hm))]

theorem dashed_isOption (n : Str) : isOption ('-' :: '-' :: n) = true := rfl

theorem dashed_ne (n : Str) (h : n ≠ []) : '-' :: '-' :: n ≠ "--".toList := by
  intro e
  have : n = [] := by simpa using e
  exact h this

/-- What is reported for the first element when it is an option with `=`. -/
theorem getopt_eq (opts : List Opt) (hg : GoodNames opts) (i : Nat) (o : Opt) (v : Str) (ss : List Str) (h : opts[i]? = some o) (ha : o.hasArg = true) :
    getopt opts (('-' :: '-' :: (o.name ++ '=' :: v)) :: ss) = (.opt i (some v) :: (getopt opts ss).1, (getopt opts ss).2) := by
  have hgo := hg.2 o (List.mem_of_getElem? h)
  rw [getopt, if_neg (dashed_ne _ (by simp)), if_neg (by rw [dashed_isOption]; decide)]
  simp only [undash]
  rw [takeWhile_name _ _ hgo.2, dropWhile_name _ _ hgo.2, findOpt_exact opts i o hg.1 h]
  dsimp only
  rw [if_pos (by simp), if_pos ha]
  rfl

theorem getopt_sep (opts : List Opt) (hg : GoodNames opts) (i : Nat) (o : Opt) (v : Str) (ss : List Str) (h : opts[i]? = some o) (ha : o.hasArg = true) :
    getopt opts (('-' :: '-' :: o.name) :: v :: ss) = (.opt i (some v) :: (getopt opts ss).1, (getopt opts ss).2) := by
  have hgo := hg.2 o (List.mem_of_getElem? h)
  rw [getopt, if_neg (dashed_ne _ hgo.1), if_neg (by rw [dashed_isOption]; decide)]
  simp only [undash]
  rw [takeWhile_all _ hgo.2, findOpt_exact opts i o hg.1 h]
  dsimp only
  rw [if_neg (by simp [hgo.2]), if_pos ha]

theorem getopt_flag (opts : List Opt) (hg : GoodNames opts) (i : Nat) (o : Opt) (ss : List Str) (h : opts[i]? = some o) (ha : o.hasArg = false) :
    getopt opts (('-' :: '-' :: o.name) :: ss) = (.opt i none :: (getopt opts ss).1, (getopt opts ss).2) := by
  have hgo := hg.2 o (List.mem_of_getElem? h)
  rw [getopt, if_neg (dashed_ne _ hgo.1), if_neg (by rw [dashed_isOption]; decide)]
  simp only [undash]
  rw [takeWhile_all _ hgo.2, findOpt_exact opts i o hg.1 h]
  dsimp only
  rw [if_neg (by simp [hgo.2]), if_neg (by simp [ha])]

theorem getopt_word (opts : List Opt) (w : Str) (ss : List Str) (h : w.head? ≠ some '-' ∨ w = ['-']) :
    getopt opts (w :: ss) = ((getopt opts ss).1, w :: (getopt opts ss).2) := by
  have h1 : w ≠ "--".toList := by
    rintro rfl
    rcases h with h | h
    · exact h rfl
    · exact absurd h (by decide)
  have h2 : isOption w = false := by
    unfold isOption
    split
    · rcases h with h | h
      · exact absurd rfl h
      · cases h
    · rfl
  rw [getopt, if_neg h1, if_pos h2]

theorem getopt_end (opts : List Opt) (ss : List Str) : getopt opts ("--".toList :: ss) = ([], ss) := by
  rw [getopt, if_pos rfl]

theorem getopt_items_app (opts : List Opt) (hg : GoodNames opts) (rest : List Str) : ∀ (items : List Item), (∀ it ∈ items, it.WF opts) →
    getopt opts ((items.map (Item.render opts)).flatten ++ rest) =
      (items.filterMap Item.got ++ (getopt opts rest).1, items.filterMap (fun it => match it with | .word w => some w | _ => none) ++ (getopt opts rest).2)
  | [], _ => rfl
  | it :: items, h => by
    have ih := getopt_items_app opts hg rest items (fun x hx => h x (List.mem_cons_of_mem _ hx))
    have hw := h it List.mem_cons_self
    rw [List.map_cons, List.flatten_cons, List.append_assoc]
    cases it with
    | eq i v =>
      obtain ⟨o, ho, ha⟩ := hw
      have e : (Item.eq i v).render opts = ['-' :: '-' :: (o.name ++ '=' :: v)] := by
        simp [Item.render, nameAt, ho]
      rw [e, List.singleton_append, getopt_eq opts hg i o v _ ho ha, ih]
      rfl
    | sep i v =>
      obtain ⟨o, ho, ha⟩ := hw
      have e : (Item.sep i v).render opts = ['-' :: '-' :: o.name, v] := by
        simp [Item.render, nameAt, ho]
      rw [e, List.cons_append, List.singleton_append, getopt_sep opts hg i o v _ ho ha, ih]
      rfl
    | flag i =>
      obtain ⟨o, ho, ha⟩ := hw
      have e : (Item.flag i).render opts = ['-' :: '-' :: o.name] := by
        simp [Item.render, nameAt, ho]
      rw [e, List.singleton_append, getopt_flag opts hg i o _ ho ha, ih]
      rfl
    | word w =>
      have e : (Item.word w).render opts = [w] := rfl
      rw [e, List.singleton_append, getopt_word opts w _ hw, ih]
      rfl

theorem getopt_items (opts : List Opt) (hg : GoodNames opts) (items : List Item) (h : ∀ it ∈ items, it.WF opts) :
    getopt opts ((items.map (Item.render opts)).flatten) =
      (items.filterMap Item.got, items.filterMap (fun it => match it with | .word w => some w | _ => none)) := by
  have := getopt_items_app opts hg [] items h
  rw [List.append_nil] at this
  rw [this, getopt, List.append_nil, List.append_nil]

end Nfqlb.Cmd
