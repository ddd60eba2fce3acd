import Verif.Proof.RemoteAny

/-! C51, C52 and C53: control requests. -/

set_option autoImplicit false

namespace Nfqlb.Props

open Nfqlb Nfqlb.Remote Nfqlb.Argv Nfqlb.Spec.Argv Nfqlb.Spec.Rem

/-! ### C53 -/

/-- C53. For every text (shorter than 2^32-1) and every non-empty set of delimiters: `mkargv` gives the maximal runs of characters that are not delimiters, in order, each without leading spaces; NULL if there are
none. The program does not write outside the array, and it comes to an end. -/
theorem C53_mkargv (str delim : List Char) (hd : delim ≠ []) (hl : str.length < 4294967295) :
    ∃ ts, Splits delim str ts ∧ mkargv str delim = .ok (if ts = [] then none else some (ts.map trim)) := by
  obtain ⟨ts, h⟩ := splits_exists delim str
  exact ⟨ts, h, mkargv_spec hd hl h⟩

/-- The runs are determined by the text. -/
theorem C53_unique (str delim : List Char) (ts us : List (List Char)) (h : Splits delim str ts) (h' : Splits delim str us) : ts = us := splits_unique ts us str h h'

/-- NULL is given iff the text has only delimiters; with no delimiters NULL is given too. -/
theorem C53_none (str delim : List Char) (hl : str.length < 4294967295) : mkargv str delim = .ok none ↔ (delim = [] ∨ ∀ c ∈ str, c ∈ delim) := by
  by_cases hd : delim = []
  · subst hd
    simp [mkargv]
  · obtain ⟨ts, h⟩ := splits_exists delim str
    rw [mkargv_spec hd hl h]
    constructor
    · intro e
      by_cases ht : ts = []
      · subst ht
        exact .inr (splits_nil h)
      · rw [if_neg ht] at e; cases e
    · rintro (e | e)
      · exact absurd e hd
      · rw [splits_unique _ _ _ h (.nil str e), if_pos rfl]

example : mkargv " tcp,, udp ".toList ", ".toList = .ok (some ["tcp".toList, "udp".toList]) := by decide +kernel
example : mkargv "tcp[0:1]=2,  udp[1:2] = 3,".toList ",".toList = .ok (some ["tcp[0:1]=2".toList, "udp[1:2] = 3".toList]) := by decide +kernel
example : mkargv " ,, ".toList ", ".toList = .ok none := by decide +kernel
/-- A run of spaces only is an empty item. -/
example : mkargv " ,a".toList ",".toList = .ok (some [[], "a".toList]) := by decide +kernel
example : Splits ",".toList " ,a".toList [" ".toList, "a".toList] := by
  have := Splits.cons (delim := ",".toList) [] " ".toList ',' "a".toList ["a".toList] (by simp) (by decide) (by decide) (by decide) (.last [] "a".toList (by simp) (by decide) (by decide))
  exact this

/-! ### C51 -/

/-- C51. For every request with values that can be sent (`Request.WF`): if `nfqlb flow-set` sends it, the server gets every field as it is in the request. -/
theorem C51_flow_set (r : Request) (h : r.WF) (text : List Char) (hs : cmdFlowSet r.opts = .ok text) (m : Mem) : ∃ m', readFlowCmd text m = .ok ⟨0, r.received, m', []⟩ := by
  unfold cmdFlowSet at hs
  split at hs
  · rename_i hc
    cases hs
    exact read_set r h hc m
  · cases hs

theorem lower_char (c : Char) : CText.lower c = c.toLower := by
  unfold CText.lower Char.toLower
  by_cases h : 'A' ≤ c ∧ c ≤ 'Z'
  · rw [if_pos h]
    have h1 : 65 ≤ c.toNat := h.1
    have h2 : c.toNat ≤ 90 := h.2
    have h3 : c.val ≥ 'A'.val ∧ c.val ≤ 'Z'.val := ⟨h.1, h.2⟩
    rw [dif_pos h3]
    apply Char.ext
    apply UInt32.toNat_inj.1
    have hv : (c.toNat + 32).isValidChar := .inl (by omega)
    rw [Char.ofNat, dif_pos hv]
    show c.toNat + 32 = (c.val + ('a'.val - 'A'.val)).toNat
    rw [UInt32.toNat_add]
    have : ('a'.val - 'A'.val).toNat = 32 := by decide
    rw [this]
    have h4 : c.val.toNat = c.toNat := rfl
    rw [h4]
    omega
  · rw [if_neg h]
    rw [dif_neg (fun hc => h ⟨hc.1, hc.2⟩)]

theorem casestr_iff (sub : List Char) : ∀ s, casestr sub s = true ↔ ∃ a b c, s = a ++ b ++ c ∧ b.map CText.lower = sub.map CText.lower
  | [] => by
    unfold casestr
    rw [List.isEmpty_iff]
    constructor
    · rintro rfl; exact ⟨[], [], [], rfl, rfl⟩
    · rintro ⟨a, b, c, h, h'⟩
      have hb : b = [] := (List.append_eq_nil_iff.1 (List.append_eq_nil_iff.1 h.symm).1).2
      subst hb
      exact List.map_eq_nil_iff.1 h'.symm
  | x :: s => by
    unfold casestr
    rw [Bool.or_eq_true, casestr_iff sub s, List.isPrefixOf_iff_prefix]
    constructor
    · rintro (⟨t, h⟩ | ⟨a, b, c, rfl, h⟩)
      · refine ⟨[], (x :: s).take sub.length, (x :: s).drop sub.length, by simp, ?_⟩
        have := congrArg (List.take sub.length) h
        rw [List.take_left' (by simp)] at this
        rw [List.map_take]
        exact this.symm
      · exact ⟨x :: a, b, c, rfl, h⟩
    · rintro ⟨a, b, c, e, h⟩
      cases a with
      | nil =>
        refine .inl ⟨c.map CText.lower, ?_⟩
        rw [e, ← h]; simp
      | cons y a =>
        simp only [List.cons_append, List.cons.injEq] at e
        exact .inr ⟨a, b, c, e.2, h⟩

theorem tooLong_iff (t : Option (List Char)) : tooLong t = false ↔ Short t := by
  unfold tooLong Short
  cases t with
  | none => simp
  | some v => simp

/-- C51. `nfqlb flow-set` sends a request exactly if it is permitted (`Request.Permitted`); otherwise it ends with an error before anything is sent. -/
theorem C51_sent (r : Request) : (r.Permitted → ∃ text, cmdFlowSet r.opts = .ok text) ∧ (¬ r.Permitted → cmdFlowSet r.opts = .die) := by
  have key : setChecks r.opts = true ↔ r.Permitted := by
    unfold setChecks
    simp only [Bool.and_eq_true, Bool.not_eq_true', tooLong_iff, Request.opts, decide_eq_false_iff_not, Nat.not_lt, gt_iff_lt]
    have hu : (match r.udpencap.map (fun n : Nat => decimal (n : Int)), r.protocols.map joined with
        | none, _ => true
        | some _, none => false
        | some _, some p => casestr "sctp".toList p) = true ↔ (r.udpencap ≠ none → ∃ l, r.protocols = some l ∧ ∃ a b c, joined l = a ++ b ++ c ∧ b.map Char.toLower = "sctp".toList) := by
      cases hu : r.udpencap with
      | none => simp
      | some n =>
        cases hp : r.protocols with
        | none => simp
        | some l =>
          simp only [Option.map_some, casestr_iff]
          have e : "sctp".toList.map CText.lower = "sctp".toList := by decide
          rw [e]
          have e2 : (CText.lower : Char → Char) = Char.toLower := funext lower_char
          rw [e2]
          simp
    have hs : ((r.dports.isSome || r.sports.isSome) && (r.protocols.map joined).isNone) = false ↔ (r.dports ≠ none ∨ r.sports ≠ none → r.protocols ≠ none) := by
      cases r.dports <;> cases r.sports <;> cases r.protocols <;> simp
    constructor
    · rintro ⟨⟨⟨⟨⟨⟨⟨⟨h1, h2⟩, h3⟩, h4⟩, h5⟩, h6⟩, h7⟩, h8⟩, h9⟩
      exact ⟨h1, h2, h3, h4, h5, h6, h7, hu.1 h8, hs.1 h9⟩
    · rintro ⟨h1, h2, h3, h4, h5, h6, h7, h8, h9⟩
      exact ⟨⟨⟨⟨⟨⟨⟨⟨h1, h2⟩, h3⟩, h4⟩, h5⟩, h6⟩, h7⟩, hu.2 h8⟩, hs.2 h9⟩
  unfold cmdFlowSet
  constructor
  · intro h; rw [if_pos (key.2 h)]; exact ⟨_, rfl⟩
  · intro h; rw [if_neg (fun e => h (key.1 e))]

/-- The same for `flow-delete`, `flow-list` and `flow-list-names`. -/
theorem C51_others (name : List Char) (h : Clean name) (hl : name.length ≤ 1010) (m : Mem) :
    (∃ m', readFlowCmd (deleteText name) m = .ok ⟨0, { FlowCmd.zero with action := some "delete".toList, name := some name }, m', []⟩) ∧
    (∃ m', readFlowCmd (listText (some name)) m = .ok ⟨0, { FlowCmd.zero with action := some "list".toList, name := some name }, m', []⟩) ∧
    (∃ m', readFlowCmd (listText none) m = .ok ⟨0, { FlowCmd.zero with action := some "list".toList }, m', []⟩) ∧
    (∃ m', readFlowCmd listNamesText m = .ok ⟨0, { FlowCmd.zero with action := some "list-names".toList }, m', []⟩) := by
  have n1 : ':' ∉ "action".toList ∧ Clean "action".toList ∧ "action".toList.length ≤ 10 ∧ ("action".toList ++ [':', 'x', 'x', 'x']).take 3 ≠ "eoc".toList := ⟨by decide, ⟨by decide, by decide⟩, by decide, by decide⟩
  have n2 : ':' ∉ "name".toList ∧ Clean "name".toList ∧ "name".toList.length ≤ 10 ∧ ("name".toList ++ [':', 'x', 'x', 'x']).take 3 ≠ "eoc".toList := ⟨by decide, ⟨by decide, by decide⟩, by decide, by decide⟩
  refine ⟨?_, ?_, ?_, ?_⟩
  · have e : deleteText name = outLine "action" "delete".toList ++ (outLine "name" name ++ (outLine "eoc" [] ++ [])) := by simp [deleteText]
    rw [e]
    unfold readFlowCmd
    rw [readLoop_field _ ⟨by decide, by decide⟩ (by decide) n1 (set_action _ _ _ rfl), readLoop_field _ h hl n2 (set_name _ _ _ rfl), readLoop_eoc]
    exact ⟨_, rfl⟩
  · have e : listText (some name) = outLine "action" "list".toList ++ (outLine "name" name ++ (outLine "eoc" [] ++ [])) := by simp [listText, outOpt]
    rw [e]
    unfold readFlowCmd
    rw [readLoop_field _ ⟨by decide, by decide⟩ (by decide) n1 (set_action _ _ _ rfl), readLoop_field _ h hl n2 (set_name _ _ _ rfl), readLoop_eoc]
    exact ⟨_, rfl⟩
  · have e : listText none = outLine "action" "list".toList ++ (outLine "eoc" [] ++ []) := by simp [listText, outOpt]
    rw [e]
    unfold readFlowCmd
    rw [readLoop_field _ ⟨by decide, by decide⟩ (by decide) n1 (set_action _ _ _ rfl), readLoop_eoc]
    exact ⟨_, rfl⟩
  · have e : listNamesText = outLine "action" "list-names".toList ++ (outLine "eoc" [] ++ []) := by simp [listNamesText]
    rw [e]
    unfold readFlowCmd
    rw [readLoop_field _ ⟨by decide, by decide⟩ (by decide) n1 (set_action _ _ _ rfl), readLoop_eoc]
    exact ⟨_, rfl⟩

/-- A request with every field. -/
def rReq : Request where
  name := "flow 1".toList
  target := "lb1".toList
  priority := some (-17)
  protocols := some ["sctp".toList]
  dsts := some ["10.0.0.0/8".toList, "fd00::/64".toList]
  srcs := some ["0.0.0.0/0".toList]
  dports := some "22, 5000-5010".toList
  sports := some []
  mtch := some ["sctp[0:2]=7".toList, "sctp[2:2] = 8".toList]
  udpencap := some 9899

theorem rReq_permitted : rReq.Permitted := by
  refine ⟨by decide, ?_, ?_, ?_, ?_, ?_, ?_, fun _ => ⟨_, rfl, [], "sctp".toList, [], by decide, by decide⟩, fun _ => nofun⟩ <;> (rintro v ⟨⟩; decide +kernel)

/-- Ports without protocols are not permitted. -/
example : ¬ { rReq with protocols := none, udpencap := none }.Permitted := fun h => h.ports (.inl nofun) rfl

theorem rReq_wf : rReq.WF := by
  refine ⟨⟨⟨by decide, by decide⟩, by decide⟩, ⟨by decide, by decide⟩, ?_, ?_, ?_, ?_, ?_, ?_, ?_, ?_⟩
  · rintro p ⟨⟩; decide
  · rintro l ⟨⟩; unfold Items Clean; decide
  · rintro l ⟨⟩; unfold Items Clean; decide
  · rintro l ⟨⟩; unfold Items Clean; decide
  · rintro l ⟨⟩; unfold Clean; decide
  · rintro l ⟨⟩; unfold Clean; decide
  · rintro l ⟨⟩; unfold MatchItems Clean; decide
  · rintro l ⟨⟩; decide

example : rReq.WF ∧ ∃ text, cmdFlowSet rReq.opts = .ok text := ⟨rReq_wf, setText rReq.opts, by unfold cmdFlowSet; rw [if_pos (by decide +kernel)]⟩

/-- The client does not test the length of the name: the rest of a name that is too long is read as another line. Here the flow gets another target. -/
theorem C51_long_name :
    let o : SetOpts := { rReq.opts with name := List.replicate 1018 'a' ++ "target:lb9".toList }
    cmdFlowSet o = .ok (setText o) ∧ ∃ r, readFlowCmd (setText o) ⟨0, 0⟩ = .ok r ∧ r.rc = 0 ∧ r.cmd.name = some (List.replicate 1018 'a') ∧ r.cmd.target = some "lb9".toList := by
  intro o
  refine ⟨by unfold cmdFlowSet; rw [if_pos (by decide +kernel)], ?_⟩
  have h : (match readFlowCmd (setText o) ⟨0, 0⟩ with | .ok r => decide (r.rc = 0 ∧ r.cmd.name = some (List.replicate 1018 'a') ∧ r.cmd.target = some "lb9".toList) | _ => false) = true := by decide +kernel
  cases hr : readFlowCmd (setText o) ⟨0, 0⟩ with
  | ok r => rw [hr] at h; exact ⟨r, rfl, of_decide_eq_true h⟩
  | die => rw [hr] at h; cases h
  | ub => rw [hr] at h; cases h
  | hang => rw [hr] at h; cases h

/-! ### C52 -/

/-- C52, memory and termination: for every stream of bytes, reading comes to an end without undefined behaviour; at most 9 blocks of memory are in use at any time, each for a text or a list that fits in a line. If the
request is refused, nothing of it is left, and all memory is released; if not, `freeFlowCmd` releases all of it. -/
theorem C52_any_input (s : List Char) (m : Mem) : ∃ r, readFlowCmd s m = .ok r ∧ (r.rc = 0 ∨ r.rc = -1) ∧ r.mem.peak ≤ max m.peak (m.live + 9) ∧
    (r.rc = -1 → r.cmd = FlowCmd.zero ∧ r.mem.live = m.live) ∧
    (r.rc = 0 → r.mem.live = m.live + blocks r.cmd ∧ Small r.cmd ∧ (freeFlowCmd r.cmd r.mem).2.live = m.live) := by
  obtain ⟨r, e, k⟩ := readLoop_ends s.length s FlowCmd.zero m (Nat.le_refl _) (good_zero m)
  exact ⟨r, e, k.rc, k.peak, k.refused, fun h => ⟨(k.accepted h).1, (k.accepted h).2.1, (k.accepted h).2.2.2⟩⟩

/-- C52, the end mark: a stream in which `eoc:` does not occur is refused. -/
theorem C52_no_end_mark (s : List Char) (m : Mem) (h : ¬ "eoc:".toList <:+: s) : ∃ r, readFlowCmd s m = .ok r ∧ r.rc = -1 := by
  obtain ⟨r, e, k⟩ := readLoop_ends s.length s FlowCmd.zero m (Nat.le_refl _) (good_zero m)
  refine ⟨r, e, k.rc.resolve_left fun h0 => h (k.accepted h0).2.2.1⟩

/-- C52, the end mark: a stream of lines that fit, none of which begins with `eoc:`, is refused; the last line may end without newline. -/
theorem C52_ends_before_mark (lines : List (List Char)) (last : List Char) (m : Mem) (h : ∀ l ∈ lines, '\n' ∉ l ∧ l.length ≤ 1022 ∧ ¬ "eoc:".toList <+: l) (hl : '\n' ∉ last ∧ last.length ≤ 1022 ∧ ¬ "eoc:".toList <+: last) :
    ∃ r, readFlowCmd ((lines.map (· ++ ['\n'])).flatten ++ last) m = .ok r ∧ r.rc = -1 :=
  readLoop_noMark lines last FlowCmd.zero m (good_zero m) h hl

/-- C52, lines: a request with a line without colon before the end mark is refused. Missing: lines with a colon but with another name, see `C52_violated`. -/
theorem C52_bad_line_partial (before line after : List Char) (m : Mem) (hb : before = [] ∨ before.getLast? = some '\n') (he : ¬ "eoc:".toList <:+: before) (hl : ':' ∉ line) :
    ∃ r, readFlowCmd (before ++ (line ++ '\n' :: after)) m = .ok r ∧ r.rc = -1 :=
  readLoop_bad before.length before line after FlowCmd.zero m (Nat.le_refl _) (good_zero m) hb he hl

example : readFlowCmd "action:set\nname:eoc:\ntarget".toList ⟨3, 3⟩ = .ok ⟨-1, FlowCmd.zero, ⟨3, 5⟩, []⟩ := by decide +kernel
example : readFlowCmd "action:set\nname:x\n".toList ⟨3, 3⟩ = .ok ⟨-1, FlowCmd.zero, ⟨3, 5⟩, []⟩ := by decide +kernel
example : readFlowCmd "action:set\nname\neoc:\n".toList ⟨3, 3⟩ = .ok ⟨-1, FlowCmd.zero, ⟨3, 4⟩, "eoc:\n".toList⟩ := by decide +kernel
example : ¬ "eoc:".toList <:+: "action:set\n".toList ∧ "action:set\n".toList.getLast? = some '\n' := by decide +kernel

/-- C52 as stated is false (/repo/src/nfqlb/remoteCmd.c).
* A line with an unknown name is ignored (:64-68): a request with a misspelt field is executed without it.
* Any line that begins with `eoc:` ends the request (:24).
* A number that is no number is 0 (:43), and a second value for a text is ignored (:37). -/
theorem C52_violated :
    readFlowCmd "action:delete\nnam:y\nname:x\neoc:\n".toList ⟨0, 0⟩ = .ok ⟨0, { FlowCmd.zero with action := some "delete".toList, name := some "x".toList }, ⟨2, 2⟩, []⟩ ∧
    readFlowCmd "action:delete\neoc:x\nname:x\neoc:\n".toList ⟨0, 0⟩ = .ok ⟨0, { FlowCmd.zero with action := some "delete".toList }, ⟨1, 1⟩, "name:x\neoc:\n".toList⟩ ∧
    readFlowCmd "action:set\npriority:high\nname:x\nname:y\neoc:\n".toList ⟨0, 0⟩ = .ok ⟨0, { FlowCmd.zero with action := some "set".toList, name := some "x".toList }, ⟨2, 2⟩, []⟩ := by
  refine ⟨?_, ?_, ?_⟩ <;> decide +kernel

end Nfqlb.Props
