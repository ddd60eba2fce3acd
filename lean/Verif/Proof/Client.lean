import Verif.Model.Client
import Verif.Proof.Server

/-! Messages and clients. -/

set_option autoImplicit false

namespace Nfqlb.Client

open Nfqlb Nfqlb.Remote Nfqlb.Server Nfqlb.Spec.Srv

variable {rq : (Nat → Nat) → List Nat → List Nat} {fq : List Flow.Flow → List Flow.Flow}

/-! ### Messages -/

theorem matchErr_spec (s : List Char) (x : Option Match.Item) (h : Match.matchParse s = .ok x) : ∃ m, matchErr s = .ok m ∧ (m = none ↔ x.isSome = true) := by
  unfold Match.matchParse at h
  unfold matchErr
  split at h
  · rename_i h1
    rw [if_pos h1]
    cases h
    exact ⟨_, rfl, by simp⟩
  rename_i h1
  rw [if_neg h1]
  split at h
  · rename_i h2
    rw [if_pos h2]
    cases h
    exact ⟨_, rfl, by simp⟩
  rename_i h2
  rw [if_neg h2]
  split at h
  · rename_i h3
    rw [h3]
    cases h
    exact ⟨_, rfl, by simp⟩
  rename_i proto h3
  rw [h3]
  dsimp only
  obtain ⟨cp, e1, h⟩ := bind_ok h
  rw [e1, Res.ok_bind]
  dsimp only at h
  obtain ⟨cp', e2, h⟩ := bind_ok h
  rw [e2, Res.ok_bind]
  split at h
  · rename_i h4
    rw [if_pos h4]
    cases h
    exact ⟨_, rfl, by simp⟩
  rename_i h4
  rw [if_neg h4]
  split at h
  · rename_i h5
    rw [if_pos h5]
    cases h
    exact ⟨_, rfl, by simp⟩
  rename_i h5
  rw [if_neg h5]
  cases hs : CText.strchr '&' (CText.strtol0 cp').2 with
  | none =>
    rw [hs] at h
    dsimp only at h ⊢
    obtain ⟨c3, e3, h⟩ := bind_ok h
    rw [e3]
    cases h
    exact ⟨none, rfl, by simp⟩
  | some r =>
    rw [hs] at h
    dsimp only at h ⊢
    obtain ⟨c3, e3, h⟩ := bind_ok h
    rw [e3]
    cases h
    exact ⟨none, rfl, by simp⟩

theorem matchErrs_spec : ∀ (l : List (List Char)) (m : Match.Match) (x : Option Match.Match), Match.matchAddAll m l = .ok x → ∃ t, matchErrs l = .ok t ∧ (t = none ↔ x.isSome = true)
  | [], m, x, h => by
    cases h
    exact ⟨none, rfl, by simp⟩
  | s :: r, m, x, h => by
    unfold Match.matchAddAll at h
    obtain ⟨y, e, h⟩ := bind_ok h
    unfold Match.matchAdd at e
    obtain ⟨it, e2, e⟩ := bind_ok e
    obtain ⟨t, e3, e4⟩ := matchErr_spec s it e2
    unfold matchErrs
    rw [e3, Res.ok_bind]
    cases it with
    | some i =>
      cases e
      have : t = none := e4.2 rfl
      subst this
      exact matchErrs_spec r _ x h
    | none =>
      cases e
      cases h
      cases t with
      | none => exact absurd (e4.1 rfl) (by simp)
      | some t => exact ⟨_, rfl, by simp⟩

theorem next_ok {r : Res (Flow.Flow × Bool)} {k : Flow.Flow → Res (Flow.Flow × Bool)} {g : Flow.Flow} {ok : Bool} (h : Flow.next r k = .ok (g, ok)) :
    (∃ f, r = .ok (f, true) ∧ k f = .ok (g, ok)) ∨ (r = .ok (g, false) ∧ ok = false) := by
  unfold Flow.next at h
  obtain ⟨⟨f, b⟩, e, h⟩ := bind_ok h
  cases b with
  | true => exact .inl ⟨f, e, h⟩
  | false => cases h; exact .inr ⟨e, rfl⟩

theorem protocols_ok {a : Flow.Args} {f g : Flow.Flow} {ok : Bool} (h : Flow.stProtocols a f = .ok (g, ok)) : protocolsOk a.protocols = .ok ok := by
  unfold Flow.stProtocols at h
  unfold protocolsOk
  split at h
  · rename_i e; rw [e]; cases h; rfl
  · rename_i l e
    rw [e]
    dsimp only
    split at h
    · rename_i e2; rw [e2]; cases h; rfl
    · rename_i e2; rw [e2]; cases h; rfl

theorem dports_ok {a : Flow.Args} {f g : Flow.Flow} {ok : Bool} (h : Flow.stDports rq a f = .ok (g, ok)) : portsOk rq a.dports = .ok ok := by
  unfold Flow.stDports at h
  unfold portsOk
  split at h
  · rename_i e; rw [e]; cases h; rfl
  · rename_i l e
    rw [e]
    dsimp only
    obtain ⟨⟨p, b⟩, e1, h⟩ := bind_ok h
    rw [e1]
    cases h
    rfl

theorem sports_ok {a : Flow.Args} {f g : Flow.Flow} {ok : Bool} (h : Flow.stSports rq a f = .ok (g, ok)) : portsOk rq a.sports = .ok ok := by
  unfold Flow.stSports at h
  unfold portsOk
  split at h
  · rename_i e; rw [e]; cases h; rfl
  · rename_i l e
    rw [e]
    dsimp only
    obtain ⟨⟨p, b⟩, e1, h⟩ := bind_ok h
    rw [e1]
    cases h
    rfl

theorem dsts_ok {a : Flow.Args} {f g : Flow.Flow} {ok : Bool} (h : Flow.stDsts a f = .ok (g, ok)) : cidrsOk a.dsts = .ok ok := by
  unfold Flow.stDsts at h
  unfold cidrsOk
  split at h
  · rename_i e; rw [e]; cases h; rfl
  · rename_i l e
    rw [e]
    dsimp only
    obtain ⟨p, e1, h⟩ := bind_ok h
    rw [e1]
    cases p <;> cases h <;> rfl

theorem srcs_ok {a : Flow.Args} {f g : Flow.Flow} {ok : Bool} (h : Flow.stSrcs a f = .ok (g, ok)) : cidrsOk a.srcs = .ok ok := by
  unfold Flow.stSrcs at h
  unfold cidrsOk
  split at h
  · rename_i e; rw [e]; cases h; rfl
  · rename_i l e
    rw [e]
    dsimp only
    obtain ⟨p, e1, h⟩ := bind_ok h
    rw [e1]
    cases p <;> cases h <;> rfl

theorem match_ok {a : Flow.Args} {f g : Flow.Flow} {ok : Bool} (h : Flow.stMatch a f = .ok (g, ok)) : ∃ t, matchErrs (a.mtch.getD []) = .ok t ∧ (t = none ↔ ok = true) := by
  unfold Flow.stMatch at h
  split at h
  · rename_i e; rw [e]; cases h; exact ⟨none, rfl, by simp⟩
  · rename_i l e
    rw [e]
    obtain ⟨p, e1, h⟩ := bind_ok h
    obtain ⟨t, e2, e3⟩ := matchErrs_spec l [] p e1
    refine ⟨t, e2, ?_⟩
    cases p <;> cases h <;> simpa using e3

theorem check_true {r : Res Bool} {msg : String} {k : Res (Option (List Char))} (h : r = .ok true) : check r msg k = k := by
  unfold check
  rw [h]
  rfl

theorem check_false {r : Res Bool} {msg : String} {k : Res (Option (List Char))} (h : r = .ok false) : check r msg k = .ok (some msg.toList) := by
  unfold check
  rw [h]
  rfl

/-- `flowDefine` returns a message iff it does not accept the flow. -/
theorem define_err {set set' : Flow.FlowSet} {a : Flow.Args} {ok : Bool} (h : Flow.flowDefine rq fq set a = .ok (set', ok)) : ∃ m, flowDefineErr rq a = .ok m ∧ (m = none ↔ ok = true) := by
  unfold Flow.flowDefine at h
  unfold flowDefineErr
  split at h
  · rename_i e; rw [e]; cases h; exact ⟨_, rfl, by simp⟩
  rename_i name e
  rw [e]
  dsimp only
  split at h
  · rename_i e1; rw [if_pos e1]; cases h; exact ⟨_, rfl, by simp⟩
  rename_i e1
  rw [if_neg e1]
  obtain ⟨fo, eb, h⟩ := bind_ok h
  have hfo : fo.isSome = ok := by
    cases fo with
    | none => cases h; rfl
    | some f =>
      cases hp : Flow.putFlow f name set.flows with
      | mk flows old =>
        simp only [hp] at h
        obtain ⟨_, _, h⟩ := bind_ok h
        obtain ⟨_, _, h⟩ := bind_ok h
        cases h
        rfl
  subst hfo
  unfold Flow.build at eb
  dsimp only at eb
  obtain ⟨⟨g, b⟩, en, eb⟩ := bind_ok eb
  have hb : fo.isSome = b := by
    cases b with
    | true => cases eb; rfl
    | false =>
      rw [if_neg (by simp)] at eb
      obtain ⟨-, -, eb⟩ := bind_ok eb
      cases eb
      rfl
  rw [hb]
  clear h eb hb
  rcases next_ok en with ⟨f5, n5, m6⟩ | ⟨n5, rfl⟩
  · obtain ⟨t, e6, e7⟩ := match_ok m6
    rcases next_ok n5 with ⟨f4, n4, m5⟩ | ⟨n4, h⟩
    · rcases next_ok n4 with ⟨f3, n3, m4⟩ | ⟨n3, h⟩
      · rcases next_ok n3 with ⟨f2, n2, m3⟩ | ⟨n2, h⟩
        · rcases next_ok n2 with ⟨f1, n1, m2⟩ | ⟨n1, h⟩
          · rw [check_true (protocols_ok n1), check_true (dports_ok m2), check_true (sports_ok m3), check_true (dsts_ok m4), check_true (srcs_ok m5)]
            exact ⟨t, e6, e7⟩
          · cases h
        · cases h
      · cases h
    · cases h
  · rcases next_ok n5 with ⟨f4, n4, m5⟩ | ⟨n4, -⟩
    · rcases next_ok n4 with ⟨f3, n3, m4⟩ | ⟨n3, h⟩
      · rcases next_ok n3 with ⟨f2, n2, m3⟩ | ⟨n2, h⟩
        · rcases next_ok n2 with ⟨f1, n1, m2⟩ | ⟨n1, h⟩
          · rw [check_true (protocols_ok n1), check_true (dports_ok m2), check_true (sports_ok m3), check_true (dsts_ok m4), check_false (srcs_ok m5)]
            exact ⟨_, rfl, by simp⟩
          · cases h
        · cases h
      · cases h
    · rcases next_ok n4 with ⟨f3, n3, m4⟩ | ⟨n3, -⟩
      · rcases next_ok n3 with ⟨f2, n2, m3⟩ | ⟨n2, h⟩
        · rcases next_ok n2 with ⟨f1, n1, m2⟩ | ⟨n1, h⟩
          · rw [check_true (protocols_ok n1), check_true (dports_ok m2), check_true (sports_ok m3), check_false (dsts_ok m4)]
            exact ⟨_, rfl, by simp⟩
          · cases h
        · cases h
      · rcases next_ok n3 with ⟨f2, n2, m3⟩ | ⟨n2, -⟩
        · rcases next_ok n2 with ⟨f1, n1, m2⟩ | ⟨n1, h⟩
          · rw [check_true (protocols_ok n1), check_true (dports_ok m2), check_false (sports_ok m3)]
            exact ⟨_, rfl, by simp⟩
          · cases h
        · rcases next_ok n2 with ⟨f1, n1, m2⟩ | ⟨n1, -⟩
          · rw [check_true (protocols_ok n1), check_false (dports_ok m2)]
            exact ⟨_, rfl, by simp⟩
          · rw [check_false (protocols_ok n1)]
            exact ⟨_, rfl, by simp⟩

/-- The message does not depend on the load-balancer. -/
theorem flowArgs_err (c : FlowLb.Cmd) (lb : Nat) : flowDefineErr rq (FlowLb.flowArgs c lb) = flowDefineErr rq (FlowLb.flowArgs c 0) := rfl

theorem traceArgs_err (c : FlowCmd) (p : Nat) : flowDefineErr rq (traceArgs c p) = flowDefineErr rq (traceArgs c 0) := rfl

/-- There is a message when `cmd_set` writes one of `flowDefine`. -/
theorem set_err {env : FlowLb.Env} {st st' : FlowLb.St} {c : FlowLb.Cmd} (h : FlowLb.cmdSet rq fq env st c = .ok (st', .define)) : ∃ m, setErr rq c = .ok (some m) := by
  unfold FlowLb.cmdSet at h
  obtain ⟨⟨s1, r⟩, e1, h⟩ := bind_ok h
  cases r with
  | inl reply =>
    cases h
    exfalso
    unfold FlowLb.setLb at e1
    repeat (first | (obtain ⟨x, -, e1⟩ := bind_ok e1) | (split at e1) | (dsimp only at e1) | (cases e1))
  | inr lb =>
    dsimp only at h
    obtain ⟨⟨s2, r⟩, e2, h⟩ := bind_ok h
    unfold FlowLb.setUdp at e2
    unfold setErr
    split at e2
    · rename_i h0
      cases e2
      rw [if_pos h0]
      dsimp only at h
      unfold FlowLb.setFlow at h
      obtain ⟨⟨fs, ok⟩, e3, h⟩ := bind_ok h
      obtain ⟨m, e4, e5⟩ := define_err e3
      rw [flowArgs_err] at e4
      cases ok with
      | true => cases h
      | false =>
        cases m with
        | none => exact absurd (e5.1 rfl) (by simp)
        | some m => exact ⟨m, e4⟩
    · rename_i h0
      rw [if_neg h0]
      split at e2
      · cases e2
        cases h
      · obtain ⟨name, e3, e2⟩ := bind_ok e2
        obtain ⟨⟨fs, ok⟩, e4, e2⟩ := bind_ok e2
        obtain ⟨m, e5, e6⟩ := define_err e4
        rw [e3, Res.ok_bind, e5, Res.ok_bind]
        cases m with
        | some m => exact ⟨m, rfl⟩
        | none =>
          have : ok = true := e6.1 rfl
          subst this
          cases e2
          dsimp only at h ⊢
          unfold FlowLb.setFlow at h
          obtain ⟨⟨fs, ok⟩, e3, h⟩ := bind_ok h
          obtain ⟨m, e4, e5⟩ := define_err e3
          rw [flowArgs_err] at e4
          cases ok with
          | true => cases h
          | false =>
            cases m with
            | none => exact absurd (e5.1 rfl) (by simp)
            | some m => exact ⟨m, e4⟩

/-- A request is kept while it is handled. -/
theorem handle_cmd {cnt : Flow.Flow → Nat} {env : FlowLb.Env} {s s' : Srv} {c : FlowCmd} {o : Out} (h : handle rq fq cnt env s c = .ok (s', o)) : s'.cmd = s.cmd := by
  unfold handle at h
  split at h
  · cases h; rfl
  split at h
  · unfold traceHandle at h
    split at h
    · unfold traceSet at h
      split at h
      · cases h
      · obtain ⟨x, -, h⟩ := bind_ok h
        cases h
        rfl
    split at h
    · unfold traceDelete at h
      split at h
      · cases h; rfl
      · obtain ⟨x, -, h⟩ := bind_ok h
        dsimp only at h
        obtain ⟨y, e, h⟩ := bind_ok h
        cases h
        unfold freeName at e
        split at e
        · cases e; rfl
        · split at e
          · cases e
          · cases e; rfl
    split at h
    · obtain ⟨x, -, h⟩ := bind_ok h
      cases h; rfl
    split at h <;> (cases h; rfl)
  split at h
  · obtain ⟨x, -, h⟩ := bind_ok h
    cases h; rfl
  split at h
  · obtain ⟨x, -, h⟩ := bind_ok h
    cases h; rfl
  split at h
  · obtain ⟨x, -, h⟩ := bind_ok h
    cases h; rfl
  split at h <;> (cases h; rfl)

theorem delete_reply {st st' : FlowLb.St} {name : Option (List Char)} {r : FlowLb.Reply} (h : FlowLb.cmdDelete st name = .ok (st', r)) : r = .ok ∨ r = .name := by
  unfold FlowLb.cmdDelete at h
  repeat (first | (obtain ⟨x, -, h⟩ := bind_ok h) | (split at h) | (dsimp only at h) | (cases h; simp))

/-- Whatever is answered has bytes: `writeReply` never gets NULL. -/
theorem wire_handle {cnt : Flow.Flow → Nat} {env : FlowLb.Env} {s s' : Srv} {c : FlowCmd} {o : Out} (h : handle rq fq cnt env s c = .ok (s', o)) : ∃ w, wire rq c o = .ok w := by
  unfold handle at h
  split at h
  · cases h; exact ⟨_, rfl⟩
  split at h
  · unfold traceHandle at h
    split at h
    · unfold traceSet at h
      split at h
      · cases h
      · obtain ⟨⟨t, ok⟩, e, h⟩ := bind_ok h
        cases h
        cases ok with
        | true => exact ⟨_, rfl⟩
        | false =>
          obtain ⟨m, e1, e2⟩ := define_err e
          rw [traceArgs_err] at e1
          cases m with
          | none => exact absurd (e2.1 rfl) (by simp)
          | some m =>
            refine ⟨writeReply m, ?_⟩
            show (flowDefineErr rq (traceArgs c 0) >>= _) = _
            rw [e1]
            rfl
    split at h
    · unfold traceDelete at h
      split at h
      · cases h; exact ⟨_, rfl⟩
      · obtain ⟨x, -, h⟩ := bind_ok h
        dsimp only at h
        obtain ⟨y, e, h⟩ := bind_ok h
        cases h
        exact ⟨_, rfl⟩
    split at h
    · obtain ⟨x, -, h⟩ := bind_ok h
      cases h; exact ⟨_, rfl⟩
    split at h <;> (cases h; exact ⟨_, rfl⟩)
  split at h
  · obtain ⟨⟨st, r⟩, e, h⟩ := bind_ok h
    cases h
    cases r with
    | define =>
      obtain ⟨m, e1⟩ := set_err e
      refine ⟨writeReply m, ?_⟩
      show (setErr rq c.toCmd >>= _) = _
      rw [e1]
      rfl
    | _ => exact ⟨_, rfl⟩
  split at h
  · obtain ⟨⟨st, r⟩, e, h⟩ := bind_ok h
    cases h
    rcases delete_reply e with rfl | rfl <;> exact ⟨_, rfl⟩
  split at h
  · obtain ⟨x, -, h⟩ := bind_ok h
    cases h; exact ⟨_, rfl⟩
  split at h <;> (cases h; exact ⟨_, rfl⟩)

/-- Bytes are written whenever the server goes on. -/
theorem serveBytes_ok {s s' : Srv} {k : Conn} {o : Out} (h : serve rq fq s k = .ok (s', o)) :
    ∃ w, serveBytes rq fq s k = .ok (s', w) ∧ wire rq s'.cmd o = .ok w ∧ (∀ c, request k.bytes = some c → s'.cmd = c) := by
  unfold serveBytes
  rw [h, Res.ok_bind]
  dsimp only
  obtain ⟨c, m, ⟨h1, h2, h3⟩ | ⟨x, h1, h2⟩⟩ := serve_cases h
  · subst h3
    exact ⟨[], rfl, rfl, fun c hc => by rw [h1] at hc; cases hc⟩
  · have hc := handle_cmd h2
    obtain ⟨w, e⟩ := wire_handle h2
    have hc : s'.cmd = x := hc
    rw [hc, e]
    exact ⟨w, rfl, rfl, fun c hc => by rw [h1] at hc; cases hc; rfl⟩

/-! ### What the messages say -/

theorem check_inv {r : Res Bool} {msg : String} {k : Res (Option (List Char))} {m : List Char} (h : check r msg k = .ok (some m)) : (r = .ok false ∧ m = msg.toList) ∨ (r = .ok true ∧ k = .ok (some m)) := by
  unfold check at h
  obtain ⟨b, e, h⟩ := bind_ok h
  cases b with
  | true => exact .inr ⟨e, h⟩
  | false => cases h; exact .inl ⟨e, rfl⟩

section
open Nfqlb.Match Nfqlb.Spec.BM

/-- An expression in the syntax is refused only if it is outside the header. -/
theorem matchErr_text (e : Expr) (hw : e.WF = true) (hl : e.text.length ≤ 64) :
    matchErr e.text = .ok (if u32 (cnum e.offset + e.nbytes) > e.proto.hlen then some "Out of bounds".toList else none) := by
  by_cases hb : u32 (cnum e.offset + e.nbytes) > e.proto.hlen
  · rw [if_pos hb]
    have hre : Regex.matchesRe Match.regex e.text = true := (Match.regex_iff _).2 ⟨e, hw, rfl⟩
    obtain ⟨⟨h1, h1'⟩, h2, h3, h4⟩ := (Match.wf_iff e).1 hw
    unfold matchErr
    rw [if_neg (by omega), hre]
    simp only [Bool.true_eq_false, if_false]
    have hp : Match.protoOf e.text = some e.proto.num.toNat := by
      unfold Expr.text
      cases e.proto <;> rfl
    rw [hp]
    dsimp only
    have ht : e.text = e.proto.text ++ '[' :: (sp 0 ++ e.offset ++ (sp e.sp1 ++ ':' :: (sp e.sp2 ++ [Nat.digitChar e.nbytes] ++ (']' :: (maskText e.mask ++ (sp e.sp3 ++ '=' :: (sp e.sp4 ++ e.value.text))))))) := by
      simp [Expr.text, sp]
    rw [ht, after_at _ _ _ (by cases e.proto <;> decide)]
    obtain ⟨ds', hds', hs1⟩ := strtol_dec 0 h1 h1' (r := sp e.sp1 ++ ':' :: (sp e.sp2 ++ [Nat.digitChar e.nbytes] ++ (']' :: (maskText e.mask ++ (sp e.sp3 ++ '=' :: (sp e.sp4 ++ e.value.text))))))
      (stops_sp _ (stops_cons (by decide)))
    rw [Res.ok_bind, hs1]
    dsimp only
    rw [← List.append_assoc, after_at _ _ _ (by
      intro x hx
      rcases List.mem_append.1 hx with hx | hx
      · exact isDigit_ne (hds' x hx) (by decide)
      · rw [sp_mem hx]; decide)]
    rw [Res.ok_bind]
    have hnb : (CText.strtol0 (sp e.sp2 ++ [Nat.digitChar e.nbytes] ++ (']' :: (maskText e.mask ++ (sp e.sp3 ++ '=' :: (sp e.sp4 ++ e.value.text)))))).1 = e.nbytes := by
      obtain ⟨r', hr', hs⟩ := strtol_dec e.sp2 (ds := [Nat.digitChar e.nbytes]) (by simp) (by rcases h2 with h | h | h <;> rw [h] <;> decide)
        (r := ']' :: (maskText e.mask ++ (sp e.sp3 ++ '=' :: (sp e.sp4 ++ e.value.text)))) (stops_cons (by decide))
      rw [hs]
      show cnum [Nat.digitChar e.nbytes] = e.nbytes
      rcases h2 with h | h | h <;> rw [h] <;> decide
    rw [hnb, if_neg (by omega)]
    have hhl : headerlength e.proto.num.toNat = e.proto.hlen := by cases e.proto <;> rfl
    rw [hhl, if_pos hb]
  · rw [if_neg hb]
    have hp := parse_text e hw hl
    rw [if_neg hb] at hp
    obtain ⟨m, e1, e2⟩ := matchErr_spec _ _ hp
    rw [e1, e2.2 rfl]

/-- The reasons of `matchParse`: those that are left of the five in the code. -/
theorem matchErr_exact (s : List Char) :
    (64 < s.length ∧ matchErr s = .ok (some "String too long".toList)) ∨
    (s.length ≤ 64 ∧ (¬ ∃ e : Expr, e.WF = true ∧ e.text = s) ∧ matchErr s = .ok (some "Doesn't match regexp".toList)) ∨
    ∃ e : Expr, e.WF = true ∧ e.text = s ∧ s.length ≤ 64 ∧ matchErr s = .ok (if u32 (cnum e.offset + e.nbytes) > e.proto.hlen then some "Out of bounds".toList else none) := by
  by_cases hl : 64 < s.length
  · exact .inl ⟨hl, by unfold matchErr; rw [if_pos hl]⟩
  by_cases he : ∃ e : Expr, e.WF = true ∧ e.text = s
  · obtain ⟨e, h1, rfl⟩ := he
    exact .inr (.inr ⟨e, h1, rfl, by omega, matchErr_text e h1 (by omega)⟩)
  · refine .inr (.inl ⟨by omega, he, ?_⟩)
    unfold matchErr
    rw [if_neg hl, if_pos]
    cases h : Regex.matchesRe Match.regex s with
    | false => rfl
    | true => exact absurd ((regex_iff s).1 h) he

end

/-- The reasons of `matchParse`. -/
def matchTexts : List (List Char) := ["String too long".toList, "Doesn't match regexp".toList, "Out of bounds".toList]

theorem matchErr_texts {s m : List Char} (h : matchErr s = .ok (some m)) : m ∈ matchTexts := by
  rcases matchErr_exact s with ⟨-, e⟩ | ⟨-, -, e⟩ | ⟨x, -, -, -, e⟩
  · rw [h] at e; cases e; simp [matchTexts]
  · rw [h] at e; cases e; simp [matchTexts]
  · rw [h] at e
    split at e
    · cases e; simp [matchTexts]
    · cases e

theorem matchErrs_inv : ∀ {l : List (List Char)} {m : List Char}, matchErrs l = .ok (some m) → ∃ s ∈ l, ∃ e ∈ matchTexts, matchErr s = .ok (some e) ∧ m = ("Match [".toList ++ s ++ "] ".toList ++ e).take 127
  | [], m, h => by cases h
  | s :: r, m, h => by
    unfold matchErrs at h
    obtain ⟨x, e, h⟩ := bind_ok h
    cases x with
    | some x =>
      cases h
      exact ⟨s, by simp, x, matchErr_texts e, e, rfl⟩
    | none =>
      obtain ⟨t, h1, h2⟩ := matchErrs_inv (l := r) h
      exact ⟨t, List.mem_cons_of_mem _ h1, h2⟩

/-- The message of `flowDefine`, and the option that is wrong. -/
theorem define_inv {a : Flow.Args} {m : List Char} (h : flowDefineErr rq a = .ok (some m)) :
    (a.name = none ∧ m = "No name".toList) ∨ (∃ n, a.name = some n ∧ 1024 ≤ n.length ∧ m = "Name too long".toList) ∨ (protocolsOk a.protocols = .ok false ∧ m = "Invalid protocols".toList) ∨
    ((portsOk rq a.dports = .ok false ∨ portsOk rq a.sports = .ok false) ∧ m = "Invalid dports".toList) ∨ (cidrsOk a.dsts = .ok false ∧ m = "Invalid dsts".toList) ∨ (cidrsOk a.srcs = .ok false ∧ m = "Invalid srcs".toList) ∨
    (matchErrs (a.mtch.getD []) = .ok (some m) ∧ ∃ s ∈ a.mtch.getD [], ∃ e ∈ matchTexts, matchErr s = .ok (some e) ∧ m = ("Match [".toList ++ s ++ "] ".toList ++ e).take 127) := by
  unfold flowDefineErr at h
  split at h
  · rename_i e; cases h; exact .inl ⟨e, rfl⟩
  rename_i n e
  refine .inr ?_
  split at h
  · rename_i e1; cases h; exact .inl ⟨n, e, e1, rfl⟩
  refine .inr ?_
  rcases check_inv h with h | ⟨-, h⟩
  · exact .inl h
  refine .inr ?_
  rcases check_inv h with h | ⟨-, h⟩
  · exact .inl ⟨.inl h.1, h.2⟩
  rcases check_inv h with h | ⟨-, h⟩
  · exact .inl ⟨.inr h.1, h.2⟩
  refine .inr ?_
  rcases check_inv h with h | ⟨-, h⟩
  · exact .inl h
  refine .inr ?_
  rcases check_inv h with h | ⟨-, h⟩
  · exact .inl h
  exact .inr ⟨h, matchErrs_inv h⟩

/-- A message can be told from `OK`, is a string, and has fewer than 64 characters if the items to match have not more than 34. -/
theorem define_msg {a : Flow.Args} {m : List Char} (h : flowDefineErr rq a = .ok (some m)) (hc : ∀ s ∈ a.mtch.getD [], '\x00' ∉ s) :
    m ≠ [] ∧ m.take 2 ≠ "OK".toList ∧ '\x00' ∉ m ∧ ((∀ s ∈ a.mtch.getD [], s.length ≤ 34) → m.length < 64) := by
  rcases define_inv h with ⟨-, rfl⟩ | ⟨n, -, -, rfl⟩ | ⟨-, rfl⟩ | ⟨-, rfl⟩ | ⟨-, rfl⟩ | ⟨-, rfl⟩ | ⟨-, s, hs, e, he, -, rfl⟩
  · exact ⟨by decide, by decide, by decide, fun _ => by decide⟩
  · exact ⟨by decide, by decide, by decide, fun _ => by decide⟩
  · exact ⟨by decide, by decide, by decide, fun _ => by decide⟩
  · exact ⟨by decide, by decide, by decide, fun _ => by decide⟩
  · exact ⟨by decide, by decide, by decide, fun _ => by decide⟩
  · exact ⟨by decide, by decide, by decide, fun _ => by decide⟩
  have he1 : e.length ≤ 20 ∧ '\x00' ∉ e := by
    have : ∀ e ∈ matchTexts, e.length ≤ 20 ∧ '\x00' ∉ e := by decide
    exact this e he
  have h1 : "Match [".toList = 'M' :: 'a' :: "tch [".toList := by decide
  refine ⟨?_, ?_, ?_, fun hl => ?_⟩
  · rw [h1]; simp [List.take]
  · rw [h1]
    simp [List.take]
  · intro hm
    have := List.mem_of_mem_take hm
    simp only [List.mem_append] at this
    rcases this with ((h2 | h2) | h2) | h2
    · revert h2; decide
    · exact hc s hs h2
    · revert h2; decide
    · exact he1.2 h2
  · have := hl s hs
    have h3 : ("Match [".toList).length = 7 := by decide
    have h4 : ("] ".toList).length = 2 := by decide
    simp only [List.length_take, List.length_append, h3, h4]
    omega

theorem set_msg {c : FlowLb.Cmd} {m : List Char} (h : setErr rq c = .ok (some m)) (hc : ∀ s ∈ c.mtch.getD [], '\x00' ∉ s) :
    m ≠ [] ∧ m.take 2 ≠ "OK".toList ∧ '\x00' ∉ m ∧ ((∀ s ∈ c.mtch.getD [], s.length ≤ 34) → m.length < 64) := by
  unfold setErr at h
  split at h
  · exact define_msg h hc
  · obtain ⟨name, -, h⟩ := bind_ok h
    obtain ⟨x, e, h⟩ := bind_ok h
    cases x with
    | some x =>
      cases h
      obtain ⟨h1, h2, h3, h4⟩ := define_msg e (by simp [FlowLb.udpArgs])
      exact ⟨h1, h2, h3, fun _ => h4 (by simp [FlowLb.udpArgs])⟩
    | none => exact define_msg h hc

/-- What is written for a reply. -/
theorem reply_msg {c : FlowCmd} {r : FlowLb.Reply} {w : List Char} (h : wire rq c (.reply r) = .ok w) (hc : ∀ s ∈ c.mtch.getD [], '\x00' ∉ s) :
    ∃ m, w = writeReply m ∧ m ≠ [] ∧ (m.take 2 = "OK".toList ↔ r = .ok) ∧ (r = .ok → m = "OK".toList) ∧ '\x00' ∉ m ∧ ((∀ s ∈ c.mtch.getD [], s.length ≤ 34) → m.length < 64) := by
  cases r with
  | define =>
    simp only [wire, replyText] at h
    obtain ⟨x, e, h⟩ := bind_ok h
    cases x with
    | none => cases h
    | some m =>
      cases h
      obtain ⟨h1, h2, h3, h4⟩ := set_msg e hc
      exact ⟨m, rfl, h1, by simpa using h2, by simp, h3, h4⟩
  | ok => cases h; exact ⟨_, rfl, by decide, by decide, by decide, by decide, fun _ => by decide⟩
  | alter => cases h; exact ⟨_, rfl, by decide, by decide, by decide, by decide, fun _ => by decide⟩
  | newLb => cases h; exact ⟨_, rfl, by decide, by decide, by decide, by decide, fun _ => by decide⟩
  | lb => cases h; exact ⟨_, rfl, by decide, by decide, by decide, by decide, fun _ => by decide⟩
  | sctp => cases h; exact ⟨_, rfl, by decide, by decide, by decide, by decide, fun _ => by decide⟩
  | name => cases h; exact ⟨_, rfl, by decide, by decide, by decide, by decide, fun _ => by decide⟩

/-- A flow that is not accepted leaves the flows as they were. -/
theorem define_same {set set' : Flow.FlowSet} {a : Flow.Args} (h : Flow.flowDefine rq fq set a = .ok (set', false)) : set' = set := by
  unfold Flow.flowDefine at h
  split at h
  · cases h; rfl
  rename_i name _
  split at h
  · cases h; rfl
  obtain ⟨fo, eb, h⟩ := bind_ok h
  cases fo with
  | none => cases h; rfl
  | some f =>
    cases hp : Flow.putFlow f name set.flows with
    | mk flows old =>
      simp only [hp] at h
      obtain ⟨_, _, h⟩ := bind_ok h
      obtain ⟨_, _, h⟩ := bind_ok h
      cases h

/-- Without `udpencap` there are fewer replies. -/
theorem set_reply {env : FlowLb.Env} {st st' : FlowLb.St} {c : FlowLb.Cmd} {r : FlowLb.Reply} (h : FlowLb.cmdSet rq fq env st c = .ok (st', r)) (hu : c.udpencap = 0) : r ≠ .sctp ∧ r ≠ .name := by
  unfold FlowLb.cmdSet at h
  obtain ⟨⟨s1, x⟩, e1, h⟩ := bind_ok h
  cases x with
  | inl reply =>
    cases h
    refine ⟨fun hx => ?_, fun hx => ?_⟩
    all_goals
      subst hx
      unfold FlowLb.setLb at e1
      repeat (first | (obtain ⟨x, -, e1⟩ := bind_ok e1) | (split at e1) | (dsimp only at e1) | (cases e1))
  | inr lb =>
    dsimp only at h
    unfold FlowLb.setUdp at h
    rw [if_pos hu, Res.ok_bind] at h
    dsimp only at h
    unfold FlowLb.setFlow at h
    obtain ⟨⟨fs, ok⟩, e5, h⟩ := bind_ok h
    cases ok <;> cases h <;> exact ⟨by simp, by simp⟩

theorem delete_ok {st st' : FlowLb.St} {name : List Char} {r : FlowLb.Reply} (h : FlowLb.cmdDelete st (some name) = .ok (st', r)) : r = .ok := by
  unfold FlowLb.cmdDelete at h
  dsimp only at h
  repeat (first | (obtain ⟨x, -, h⟩ := bind_ok h) | (split at h) | (dsimp only at h) | (cases h; rfl))

/-! ### Clients -/

theorem copyLoop_eq (ns : Nat → Nat) : ∀ (n : Nat) (s : List Char), s.length ≤ n → ∀ i, copyLoop ns i s = s
  | 0, s, h, i => by
    have : s = [] := List.eq_nil_of_length_eq_zero (by omega)
    subst this
    unfold copyLoop
    rfl
  | n + 1, s, h, i => by
    unfold copyLoop
    split
    · rename_i e; exact e.symm
    · rename_i e
      have hp : 0 < s.length := List.length_pos_iff.2 e
      have hl : (readFd 1024 (ns i) s).length ≥ 1 := by
        unfold readFd
        simp only [List.length_take]
        omega
      rw [copyLoop_eq ns n _ (by simp only [List.length_drop]; omega)]
      show readFd 1024 (ns i) s ++ s.drop (readFd 1024 (ns i) s).length = s
      unfold readFd
      rw [List.length_take]
      generalize min (max (ns i) 1) 1024 = x
      by_cases hx : x ≤ s.length
      · rw [Nat.min_eq_left hx, List.take_append_drop]
      · rw [Nat.min_eq_right (by omega), List.drop_length, List.append_nil, List.take_of_length_le (by omega)]

/-- A message that is read whole is printed. -/
theorem short_whole {n : Nat} {m : List Char} (h0 : '\x00' ∉ m) (hl : m.length < 64) (hn : m.length < n) :
    shortClient n (writeReply m) = .ok ⟨m ++ ['\n'], if m.take 2 = "OK".toList then 0 else -1⟩ := by
  unfold shortClient readFd writeReply
  dsimp only
  rw [List.take_of_length_le (by simp; omega)]
  rw [if_neg (by simp), if_pos (by simp)]
  have h1 : (m ++ ['\x00']).takeWhile (fun c => c != '\x00') = m := by
    rw [List.takeWhile_append_of_pos (by intro a ha; simp; intro e; exact h0 (e ▸ ha))]
    simp
  rw [h1]
  have h2 : ((m ++ ['\x00']).take 2 = "OK".toList) ↔ (m.take 2 = "OK".toList) := by
    match m with
    | [] => decide
    | [a] => simp [List.take]
    | a :: b :: l => simp [List.take]
  simp only [h2]

end Nfqlb.Client
