import Verif.Proof.Client
import Verif.Props.Server

/-! C82: what the clients of the control server print, and their exit codes. -/

set_option autoImplicit false

namespace Nfqlb.Props

open Nfqlb Nfqlb.Remote Nfqlb.Server Nfqlb.Client Nfqlb.Spec Nfqlb.Spec.Srv Nfqlb.Spec.FLB Nfqlb.Spec.Rem Nfqlb.Spec.RS Nfqlb.Spec.FL Nfqlb.Spec.J Nfqlb.Spec.FP

/-! ### Examples -/

/-- A server that just started, after the connections: what the last of them gets. -/
def clBytes (es : List Server.Ev) (text : String) : Res (List Char) := do
  let (s, _) ← sRun es
  let (_, w) ← serveBytes isort fisort s.srv ⟨fEnv, fun _ => 5, text.toList, false⟩
  return w

/-- The client of the last connection, if all that is sent comes in one piece. -/
def clShort (es : List Server.Ev) (text : String) : Res Result := do
  let w ← clBytes es text
  shortClient w.length w

/-! ### The theorems -/

/-- C82, answers: whenever the server goes on after a connection, the bytes that it writes are defined; no message is missing. -/
theorem C82_answered (rq : (Nat → Nat) → List Nat → List Nat) (fq : List Flow.Flow → List Flow.Flow) (s s' : Srv) (k : Conn) (o : Out) (h : serve rq fq s k = .ok (s', o)) : ∃ w, serveBytes rq fq s k = .ok (s', w) := by
  obtain ⟨w, h1, -⟩ := serveBytes_ok h
  exact ⟨w, h1⟩

example : clBytes [sSet "a" "lb1" "tcp"] "action:set\nname:a\ntarget:lb1\ndsts:x\neoc:\n" = .ok "Invalid dsts\x00".toList := by decide +kernel

/-- The request of `flow-set` is what comes in the connection. -/
theorem set_request {r : Request} (hw : r.WF) {text : List Char} (hs : cmdFlowSet r.opts = .ok text) : request text = some r.received := by
  obtain ⟨m, e⟩ := C51_flow_set r hw text hs ⟨0, 0⟩
  unfold request
  rw [e]
  simp

/-- C82, `flow-set`: if the answer comes in one piece and the items to match have at most 34 characters, the client prints a line; its exit code is 0 exactly if the line is `OK`; then the server has the flow, with the priority and
the target of the request. Otherwise it is -1, and the server has the same flows as before; unless `udpencap` was given. -/
theorem C82_set_partial (rq : (Nat → Nat) → List Nat → List Nat) (hq : QSort rq) (fq : List Flow.Flow → List Flow.Flow) (hfq : Sorts fq) (conf : FlowLb.Conf) (s : Server.Sys) (hh : Srv.Hist rq fq conf s)
    (r : Request) (hw : r.WF) (text : List Char) (hs : cmdFlowSet r.opts = .ok text) (k : Conn) (hk : k.bytes = text) (hb : Benign k.bytes) (s1 : Srv) (w : List Char) (h : serveBytes rq fq s.srv k = .ok (s1, w))
    (hm : ∀ l, r.mtch = some l → ∀ i ∈ l, i.length ≤ 34) (n : Nat) (hn : w.length ≤ n) :
    ∃ res line, shortClient n w = .ok res ∧ res.out = line ++ ['\n'] ∧ line ≠ [] ∧
      ((res.code = 0 ∧ line = "OK".toList ∧ ∃ f ∈ s1.st.fset.flows, f.name = r.name ∧ f.priority = r.priority.getD 0 ∧ ∃ l, s1.st.heap f.userRef = some l ∧ l.target = r.target) ∨
       (res.code = -1 ∧ line ≠ "OK".toList ∧ (r.udpencap = none → s1.st.fset = s.srv.st.fset))) := by
  have hr := set_request hw hs
  unfold serveBytes at h
  obtain ⟨⟨s1', o⟩, e0, h⟩ := bind_ok h
  obtain ⟨w', e1, h⟩ := bind_ok h
  cases h
  obtain ⟨_, _, _, hcmd⟩ := serveBytes_ok e0
  have hcmd := hcmd _ (by rw [hk]; exact hr)
  obtain ⟨x, rfl, ex⟩ := C63_client rq fq r hw text hs s.srv s1 k hk o e0
  rw [hcmd] at e1
  have hmt : r.received.mtch = r.mtch := rfl
  have hcl : ∀ i ∈ r.received.mtch.getD [], '\x00' ∉ i := by
    intro i hi
    rw [hmt] at hi
    cases hl : r.mtch with
    | none => rw [hl] at hi; simp at hi
    | some l => rw [hl] at hi; exact (((hw.mtch l hl).2 i hi).2.1).2
  obtain ⟨m, rfl, h1, h2, h3, h4, h5⟩ := reply_msg e1 hcl
  have hl : m.length < 64 := h5 (by
    intro i hi
    rw [hmt] at hi
    cases hl : r.mtch with
    | none => rw [hl] at hi; simp at hi
    | some l => rw [hl] at hi; exact hm l hl i hi)
  have hn : m.length < n := by
    unfold writeReply at hn
    simp only [List.length_append, List.length_singleton] at hn
    omega
  have hi := hist_sinv hq hfq hh
  have hbn := (hb r.received (by rw [hk]; exact hr)).1 rfl
  refine ⟨_, m, short_whole h4 hl hn, rfl, h1, ?_⟩
  by_cases hx : x = .ok
  · left
    subst hx
    have hm := h3 rfl
    subst hm
    refine ⟨by decide, rfl, ?_⟩
    obtain ⟨f, hf, g1, g2, -, -, -, ⟨l, g6, g7⟩, -⟩ := FlowLb.set_done hq hfq hi.inv hbn.1 ex
    exact ⟨f, hf, Option.some.inj g1, g2, l, g6, Option.some.inj g7⟩
  · right
    refine ⟨by rw [if_neg (fun e => hx (h2.1 e))], fun e => hx (h2.1 (by rw [e]; decide)), fun hu => ?_⟩
    obtain ⟨nm, t, hnm, ht, hhd, _, _⟩ := hbn.1
    obtain ⟨st1, r1, q1, hfs, -⟩ := FlowLb.setLb_spec hi.inv k.env hnm ht hhd
    unfold FlowLb.cmdSet at ex
    rw [q1, Res.ok_bind] at ex
    have hfs : st1.fset = s.srv.st.fset := hfs
    cases r1 with
    | inl reply =>
      cases ex
      exact hfs
    | inr lb =>
      dsimp only at ex
      unfold FlowLb.setUdp at ex
      have hu0 : r.received.toCmd.udpencap = 0 := by
        show r.udpencap.getD 0 = 0
        rw [hu]
        rfl
      rw [if_pos hu0, Res.ok_bind] at ex
      dsimp only at ex
      unfold FlowLb.setFlow at ex
      obtain ⟨⟨fs, ok⟩, e5, ex⟩ := bind_ok ex
      cases ok with
      | true =>
        injection ex with ex
        injection ex with _ ex
        exact absurd ex.symm hx
      | false =>
        injection ex with ex
        injection ex with ex _
        rw [← ex]
        show fs = s.srv.st.fset
        rw [define_same e5, hfs]

/-- Accepted, refused by `flowDefine`, and refused because there is no load-balancer. -/
example : clShort [sSet "a" "lb1" "tcp"] "action:set\nname:b\ntarget:lb1\neoc:\n" = .ok ⟨"OK\n".toList, 0⟩ := by decide +kernel
example : clShort [sSet "a" "lb1" "tcp"] "action:set\nname:a\ntarget:lb1\nmatch:udp[8:1]=0x1\neoc:\n" = .ok ⟨"Match [udp[8:1]=0x1] Out of bounds\n".toList, -1⟩ := by decide +kernel
example : clShort [sSet "a" "lb1" "tcp"] "action:set\nname:a\ntarget:lb9\neoc:\n" = .ok ⟨"FAIL: Couldn't create new load-balancer\n".toList, -1⟩ := by decide +kernel

/-- A command line for which the hypotheses hold. -/
example : ∃ r : Request, r.WF ∧ (match cmdFlowSet r.opts with | .ok t => t == "action:set\nname:a\ntarget:lb1\npriority:7\nprotocols:tcp\neoc:\n".toList | _ => false) = true ∧ r.mtch = none := by
  refine ⟨⟨"a".toList, "lb1".toList, some 7, some ["tcp".toList], none, none, none, none, none, none⟩, ?_, by decide +kernel, rfl⟩
  refine ⟨⟨⟨by decide, by decide⟩, by decide⟩, ⟨by decide, by decide⟩, ?_, ?_, ?_, ?_, ?_, ?_, ?_, ?_⟩ <;> (intro _ h; cases h)
  · decide
  · unfold Items Clean; decide

/-- A flow with a name and nothing else. -/
def bare (name : List Char) : Flow.Args := ⟨some name, 0, 0, none, none, none, none, none, none, 0⟩

/-- The flow is refused, whatever flows there are. -/
def Refused (rq : (Nat → Nat) → List Nat → List Nat) (fq : List Flow.Flow → List Flow.Flow) (a : Flow.Args) : Prop := ∀ set set' ok, Flow.flowDefine rq fq set a = .ok (set', ok) → ok = false

theorem refused_of {rq : (Nat → Nat) → List Nat → List Nat} {fq : List Flow.Flow → List Flow.Flow} {a : Flow.Args} {m : List Char} (h : flowDefineErr rq a = .ok (some m)) : Refused rq fq a := by
  intro set set' ok hd
  obtain ⟨m', e1, e2⟩ := define_err hd
  rw [h] at e1
  cases e1
  cases ok with
  | false => rfl
  | true => exact absurd (e2.2 rfl) (by simp)

/-- What the reasons for an item to match mean. -/
theorem match_why {i e : List Char} (h : matchErr i = .ok (some e)) : (e = "String too long".toList ∧ 64 < i.length) ∨ (e = "Doesn't match regexp".toList ∧ ¬ ∃ e : BM.Expr, e.WF = true ∧ e.text = i) ∨
    (e = "Out of bounds".toList ∧ ∃ e : BM.Expr, e.WF = true ∧ e.text = i ∧ (e.Plain → ¬ e.InHeader)) := by
  rcases matchErr_exact i with ⟨h1, q⟩ | ⟨-, h1, q⟩ | ⟨x, h1, h2, -, q⟩
  · rw [h] at q; cases q; exact .inl ⟨rfl, h1⟩
  · rw [h] at q; cases q; exact .inr (.inl ⟨rfl, h1⟩)
  · rw [h] at q
    split at q
    · rename_i hb
      cases q
      refine .inr (.inr ⟨rfl, x, h1, h2, fun hp hi => ?_⟩)
      have := Match.plain_in hp hi
      omega
    · cases q

/-- C82, reasons, for `flow-set` without `udpencap`: the option that the message is about is wrong; a flow that has only this option is refused too, whatever flows there are. The message for the destination ports may be about
the source ports (see `C82_violated`). -/
theorem C82_reason_partial (rq : (Nat → Nat) → List Nat → List Nat) (fq : List Flow.Flow → List Flow.Flow) (r : Request) (hw : r.WF) (hu : r.udpencap = none) (text : List Char) (hs : cmdFlowSet r.opts = .ok text) (s s' : Srv) (k : Conn)
    (hk : k.bytes = text) (m : List Char) (h : serveBytes rq fq s k = .ok (s', m ++ ['\x00'])) :
    (m = "Invalid protocols".toList → Refused rq fq { bare r.name with protocols := r.protocols }) ∧
    (m = "Invalid dports".toList → Refused rq fq { bare r.name with dports := r.dports } ∨ Refused rq fq { bare r.name with sports := r.sports }) ∧
    (m = "Invalid dsts".toList → Refused rq fq { bare r.name with dsts := r.dsts }) ∧
    (m = "Invalid srcs".toList → Refused rq fq { bare r.name with srcs := r.srcs }) ∧
    (m.take 5 = "Match".toList → Refused rq fq { bare r.name with mtch := r.mtch } ∧ ∃ i ∈ r.mtch.getD [], ∃ why, m = ("Match [".toList ++ i ++ "] ".toList ++ why).take 127 ∧
      ((why = "String too long".toList ∧ 64 < i.length) ∨ (why = "Doesn't match regexp".toList ∧ ¬ ∃ e : BM.Expr, e.WF = true ∧ e.text = i) ∨
       (why = "Out of bounds".toList ∧ ∃ e : BM.Expr, e.WF = true ∧ e.text = i ∧ (e.Plain → ¬ e.InHeader)))) ∧
    (m ∈ ["OK".toList, "FAIL: Couldn't create new load-balancer".toList, "FAIL: Couldn't create load-balancer".toList, "FAIL: Alter udpencap not allowed".toList, "Invalid protocols".toList, "Invalid dports".toList, "Invalid dsts".toList,
        "Invalid srcs".toList] ∨ m.take 5 = "Match".toList) := by
  have hr := set_request hw hs
  unfold serveBytes at h
  obtain ⟨⟨s1', o⟩, e0, h⟩ := bind_ok h
  obtain ⟨w', e1, h⟩ := bind_ok h
  cases h
  obtain ⟨_, _, _, hcmd⟩ := serveBytes_ok e0
  have hcmd := hcmd _ (by rw [hk]; exact hr)
  obtain ⟨x, rfl, ex⟩ := C63_client rq fq r hw text hs s _ k hk o e0
  rw [hcmd] at e1
  have hu0 : r.received.toCmd.udpencap = 0 := by
    show r.udpencap.getD 0 = 0
    rw [hu]
    rfl
  have fixed : ∀ t : List Char, replyText x = some t → m = t := by
    intro t ht
    simp only [wire] at e1
    rw [ht] at e1
    injection e1 with e1
    exact (List.append_cancel_right e1).symm
  by_cases hx : x = .define
  · subst hx
    simp only [wire, replyText] at e1
    obtain ⟨y, e2, e1⟩ := bind_ok e1
    cases y with
    | none => cases e1
    | some y =>
      injection e1 with e1
      have : y = m := List.append_cancel_right e1
      subst this
      unfold setErr at e2
      rw [if_pos hu0] at e2
      have hlen : ¬ r.name.length ≥ 1024 := by have := hw.name.2; omega
      rcases define_inv e2 with ⟨hn, -⟩ | ⟨n, hn, hn2, -⟩ | ⟨hp, rfl⟩ | ⟨hp, rfl⟩ | ⟨hp, rfl⟩ | ⟨hp, rfl⟩ | ⟨hp, i, hi, e, he, hwhy, rfl⟩
      · cases hn
      · cases hn
        exact absurd hn2 hlen
      · refine ⟨fun _ => ?_, fun h => absurd h (by decide), fun h => absurd h (by decide), fun h => absurd h (by decide), fun h => absurd h (by decide), .inl (by decide)⟩
        refine refused_of (m := "Invalid protocols".toList) ?_
        unfold flowDefineErr bare
        dsimp only
        rw [if_neg hlen, check_false (show protocolsOk r.protocols = .ok false from hp)]
      · refine ⟨fun h => absurd h (by decide), fun _ => ?_, fun h => absurd h (by decide), fun h => absurd h (by decide), fun h => absurd h (by decide), .inl (by decide)⟩
        rcases hp with hp | hp
        · refine .inl (refused_of (m := "Invalid dports".toList) ?_)
          unfold flowDefineErr bare
          dsimp only
          rw [if_neg hlen, check_true (r := protocolsOk none) rfl, check_false (show portsOk rq r.dports = .ok false from hp)]
        · refine .inr (refused_of (m := "Invalid dports".toList) ?_)
          unfold flowDefineErr bare
          dsimp only
          rw [if_neg hlen, check_true (r := protocolsOk none) rfl, check_true (r := portsOk rq none) rfl, check_false (show portsOk rq r.sports = .ok false from hp)]
      · refine ⟨fun h => absurd h (by decide), fun h => absurd h (by decide), fun _ => ?_, fun h => absurd h (by decide), fun h => absurd h (by decide), .inl (by decide)⟩
        refine refused_of (m := "Invalid dsts".toList) ?_
        unfold flowDefineErr bare
        dsimp only
        rw [if_neg hlen, check_true (r := protocolsOk none) rfl, check_true (r := portsOk rq none) rfl, check_true (r := portsOk rq none) rfl, check_false (show cidrsOk r.dsts = .ok false from hp)]
      · refine ⟨fun h => absurd h (by decide), fun h => absurd h (by decide), fun h => absurd h (by decide), fun _ => ?_, fun h => absurd h (by decide), .inl (by decide)⟩
        refine refused_of (m := "Invalid srcs".toList) ?_
        unfold flowDefineErr bare
        dsimp only
        rw [if_neg hlen, check_true (r := protocolsOk none) rfl, check_true (r := portsOk rq none) rfl, check_true (r := portsOk rq none) rfl, check_true (r := cidrsOk none) rfl, check_false (show cidrsOk r.srcs = .ok false from hp)]
      · have hM : (("Match [".toList ++ i ++ "] ".toList ++ e).take 127).take 5 = "Match".toList := by
          rw [show "Match [".toList = 'M' :: 'a' :: 't' :: 'c' :: 'h' :: " [".toList by decide]
          simp [List.take]
        have no : ∀ t : List Char, t.take 5 ≠ "Match".toList → ("Match [".toList ++ i ++ "] ".toList ++ e).take 127 ≠ t := fun t ht h => ht (by rw [← h]; exact hM)
        refine ⟨fun h => absurd h (no _ (by decide)), fun h => absurd h (no _ (by decide)), fun h => absurd h (no _ (by decide)), fun h => absurd h (no _ (by decide)), fun _ => ⟨?_, i, hi, e, rfl, match_why hwhy⟩, .inr hM⟩
        refine refused_of (m := ("Match [".toList ++ i ++ "] ".toList ++ e).take 127) ?_
        unfold flowDefineErr bare
        dsimp only
        rw [if_neg hlen, check_true (r := protocolsOk none) rfl, check_true (r := portsOk rq none) rfl, check_true (r := portsOk rq none) rfl, check_true (r := cidrsOk none) rfl, check_true (r := cidrsOk none) rfl]
        exact hp
  · obtain ⟨hx2, hx3⟩ := set_reply ex hu0
    cases x with
    | define => exact absurd rfl hx
    | sctp => exact absurd rfl hx2
    | name => exact absurd rfl hx3
    | _ =>
      have := fixed _ rfl
      subst this
      exact ⟨fun h => absurd h (by decide), fun h => absurd h (by decide), fun h => absurd h (by decide), fun h => absurd h (by decide), fun h => absurd h (by decide), .inl (by decide)⟩

example : Refused isort fisort { bare "a".toList with dsts := some ["x".toList] } := refused_of (m := "Invalid dsts".toList) (by decide +kernel)

/-- C82, `flow-delete`: the client prints `OK` and its exit code is 0, however many bytes of the answer come in the first piece if it is all three. -/
theorem C82_delete_partial (rq : (Nat → Nat) → List Nat → List Nat) (fq : List Flow.Flow → List Flow.Flow) (name : List Char) (h1 : Clean name) (h2 : name.length ≤ 1010) (s s' : Srv) (k : Conn) (hk : k.bytes = deleteText name) (w : List Char)
    (h : serveBytes rq fq s k = .ok (s', w)) (n : Nat) (hn : 3 ≤ n) : shortClient n w = .ok ⟨"OK\n".toList, 0⟩ := by
  obtain ⟨m, e⟩ := (C51_others name h1 h2 ⟨0, 0⟩).1
  have hr : request k.bytes = some { FlowCmd.zero with action := some "delete".toList, name := some name } := by
    unfold request
    rw [hk, e]
    simp
  unfold serveBytes at h
  obtain ⟨⟨s1, o⟩, e0, h⟩ := bind_ok h
  obtain ⟨w', e1, h⟩ := bind_ok h
  cases h
  obtain ⟨x, rfl, ex⟩ := ((C63_answers rq fq s _ k o e0).2 _ hr).2.2.1 rfl
  have : x = .ok := delete_ok ex
  subst this
  cases e1
  exact short_whole (m := "OK".toList) (by decide) (by decide) (by have : "OK".toList.length = 2 := by decide
                                                                   omega)

example : clShort [sSet "a" "lb1" "tcp"] (String.ofList (deleteText "a".toList)) = .ok ⟨"OK\n".toList, 0⟩ := by decide +kernel

/-- C82, lists: the client of `flow-list-names` prints what the server writes, in whatever pieces it comes, and its exit code is 0. -/
theorem C82_list (ns : Nat → Nat) (w : List Char) : listClient ns w = ⟨w, 0⟩ := by
  unfold listClient
  rw [copyLoop_eq ns w.length w (Nat.le_refl _)]

/-- C82, as a user sees it: after `flow-set` that exits with 0, `flow-list-names` prints a JSON list with the name, in whatever pieces it comes; if all names are plain text (see C61). -/
theorem C82_set_list_partial (rq : (Nat → Nat) → List Nat → List Nat) (hq : QSort rq) (fq : List Flow.Flow → List Flow.Flow) (hfq : Sorts fq) (conf : FlowLb.Conf) (s : Server.Sys) (hh : Srv.Hist rq fq conf s)
    (r : Request) (hw : r.WF) (text : List Char) (hs : cmdFlowSet r.opts = .ok text) (k k' : Conn) (hk : k.bytes = text) (hb : Benign k.bytes) (hk' : k'.bytes = listNamesText) (s1 s2 : Srv) (w w' : List Char)
    (h : serveBytes rq fq s.srv k = .ok (s1, w)) (h' : serveBytes rq fq s1 k' = .ok (s2, w')) (hm : ∀ l, r.mtch = some l → ∀ i ∈ l, i.length ≤ 34) (n : Nat) (hn : w.length ≤ n) (ns : Nat → Nat)
    (hp : ∀ f ∈ s1.st.fset.flows, f.name.all plainChar = true) :
    ∃ res, shortClient n w = .ok res ∧ ∃ l, parse (listClient ns w').out = some (strings l) ∧ (res.code = 0 → r.name ∈ l) := by
  obtain ⟨res, line, g1, g2, g3, g4⟩ := C82_set_partial rq hq fq hfq conf s hh r hw text hs k hk hb s1 w h hm n hn
  refine ⟨res, g1, ?_⟩
  obtain ⟨m, e⟩ := (C51_others [] ⟨by simp, by simp⟩ (by simp) ⟨0, 0⟩).2.2.2
  have hr' : request k'.bytes = some { FlowCmd.zero with action := some "list-names".toList } := by
    unfold request
    rw [hk', e]
    simp
  unfold serveBytes at h'
  obtain ⟨⟨s2', o'⟩, e0, h'⟩ := bind_ok h'
  obtain ⟨w'', e1, h'⟩ := bind_ok h'
  cases h'
  obtain ⟨rfl, -⟩ := ((C63_answers rq fq s1 _ k' o' e0).2 _ hr').2.2.2.2.1 rfl
  cases e1
  rw [C82_list]
  refine ⟨_, C61_names_partial s1.st.fset hp, fun h0 => ?_⟩
  rcases g4 with ⟨-, -, f, hf, hfn, -⟩ | ⟨hc, -⟩
  · rw [← hfn]
    exact List.mem_map_of_mem hf
  · rw [h0] at hc
    cases hc

/-- In pieces of 1 and 4 bytes. -/
example : (do let w ← clBytes [sSet "a" "lb1" "tcp", sSet "b" "lb1" "udp"] (String.ofList listNamesText); return (listClient (fun i => if i < 5 then 1 else 4) w)) = Res.ok ⟨"[\n  \"a\",\n  \"b\"\n]\n".toList, 0⟩ := by decide +kernel

/-- The full statement is false. The message about an item with 35 characters (upper case digits are refused) does not fit in the buffer of 64 bytes: the client prints what is behind it. So does an answer that comes in two pieces. A trace flow that is accepted
is not answered: the client prints nothing and exits with -1. Wrong source ports are reported as `Invalid dports`. -/
theorem C82_violated :
    clBytes [sSet "a" "lb1" "tcp"] "action:set\nname:a\ntarget:lb1\nmatch:sctp[8:4] & 0xFFFF0000 = 0x12340000\neoc:\n" = .ok "Match [sctp[8:4] & 0xFFFF0000 = 0x12340000] Doesn't match regexp\x00".toList ∧
    clShort [sSet "a" "lb1" "tcp"] "action:set\nname:a\ntarget:lb1\nmatch:sctp[8:4] & 0xFFFF0000 = 0x12340000\neoc:\n" = .ub ∧
    shortClient 1 "OK\x00".toList = .ub ∧
    clShort [] "action:trace-set\nname:t\nprotocols:tcp\neoc:\n" = .ok ⟨[], -1⟩ ∧
    clShort [sSet "a" "lb1" "tcp"] "action:set\nname:a\ntarget:lb1\ndports:80\nsports:x\neoc:\n" = .ok ⟨"Invalid dports\n".toList, -1⟩ ∧
    ¬ Refused isort fisort { bare "a".toList with dports := some "80".toList } := by
  refine ⟨by decide +kernel, by decide +kernel, by decide +kernel, by decide +kernel, by decide +kernel, fun h => ?_⟩
  have he : (match Flow.flowDefine isort fisort ⟨[], false⟩ { bare "a".toList with dports := some "80".toList } with | .ok x => x.2 | _ => false) = true := by decide +kernel
  cases hd : Flow.flowDefine isort fisort ⟨[], false⟩ { bare "a".toList with dports := some "80".toList } with
  | ok x =>
    rw [hd] at he
    have he : x.2 = true := he
    rw [h _ _ _ hd] at he
    cases he
  | die => rw [hd] at he; cases he
  | ub => rw [hd] at he; cases he
  | hang => rw [hd] at he; cases he

end Nfqlb.Props
