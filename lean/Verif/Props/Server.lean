import Verif.Proof.ServerInv
import Verif.Props.FlowLb
import Verif.Props.FlowPrint
import Verif.Props.RemoteCmd

/-! C63, C64 and C65: the control server of `nfqlb flowlb`. -/

set_option autoImplicit false

namespace Nfqlb.Props

open Nfqlb Nfqlb.Remote Nfqlb.Server Nfqlb.Spec Nfqlb.Spec.Srv Nfqlb.Spec.FLB Nfqlb.Spec.Rem Nfqlb.Spec.RS Nfqlb.Spec.FL Nfqlb.Spec.J Nfqlb.Spec.FP

/-! ### Examples -/

/-- A connection that brings the text. -/
def sConn (text : String) : Server.Ev := .conn ⟨fEnv, fun _ => 5, text.toList, false⟩

/-- A server that just started, with events. -/
def sRun (es : List Server.Ev) : Res (Server.Sys × List Out) := Server.run isort fisort fConf ⟨Server.start false, []⟩ es

/-- A request to define a flow for a protocol. -/
def sSet (name target proto : String) : Server.Ev := sConn ("action:set\nname:" ++ name ++ "\ntarget:" ++ target ++ "\nprotocols:" ++ proto ++ "\neoc:\n")

/-- The names of the flows and of the trace flows, and the memory for requests. -/
def sView (s : Server.Sys) : List String × List String × Mem := (s.srv.st.fset.flows.map (fun f => String.ofList f.name), s.srv.trace.flows.map (fun f => String.ofList f.name), s.srv.mem)

/-! ### C63 -/

/-- C63: whatever bytes come in whatever connections, and whatever packets come in between, in the end the flows, the load-balancers and the packets in progress are what they are after exactly the complete requests to set or
delete a flow, and the packets, in their order. There is one answer for each event. -/
theorem C63_refines (rq : (Nat → Nat) → List Nat → List Nat) (fq : List Flow.Flow → List Flow.Flow) (conf : FlowLb.Conf) (ping : Bool) (es : List Server.Ev) (s : Server.Sys) (os : List Out)
    (h : Server.run rq fq conf ⟨Server.start ping, []⟩ es = .ok (s, os)) :
    FlowLb.run rq fq conf ⟨FlowLb.start ping, []⟩ (es.flatMap effect) = .ok ⟨s.srv.st, s.held⟩ ∧ os.length = es.length := run_effect es h

/-- C63, memory: whatever came, never more than the 9 blocks of one request are in use for requests, and what is in use belongs to the last request. -/
theorem C63_memory (rq : (Nat → Nat) → List Nat → List Nat) (fq : List Flow.Flow → List Flow.Flow) (conf : FlowLb.Conf) (ping : Bool) (es : List Server.Ev) (s : Server.Sys) (os : List Out)
    (h : Server.run rq fq conf ⟨Server.start ping, []⟩ es = .ok (s, os)) : s.srv.mem.peak ≤ 9 ∧ s.srv.mem.live = blocks s.srv.cmd := by
  have := run_mem es (s := ⟨Server.start ping, []⟩) ⟨rfl, Nat.zero_le _⟩ h
  exact ⟨this.2, this.1⟩

/-- C63, the answers: nothing if there is no complete request; otherwise what the action says. -/
theorem C63_answers (rq : (Nat → Nat) → List Nat → List Nat) (fq : List Flow.Flow → List Flow.Flow) (s s' : Srv) (k : Conn) (o : Out) (h : serve rq fq s k = .ok (s', o)) :
    (request k.bytes = none → o = .nothing ∧ s'.st = s.st ∧ s'.trace = s.trace) ∧
    ∀ c, request k.bytes = some c →
      (c.action = none → o = .noAction ∧ s'.st = s.st) ∧
      (c.action = some "set".toList → ∃ r, o = .reply r ∧ FlowLb.cmdSet rq fq k.env s.st c.toCmd = .ok (s'.st, r)) ∧
      (c.action = some "delete".toList → ∃ r, o = .reply r ∧ FlowLb.cmdDelete s.st c.name = .ok (s'.st, r)) ∧
      (c.action = some "list".toList → ∃ t, o = .text t ∧ Flow.flowSetPrint s.st.fset c.name k.cnt (some (lb2string s.st)) = .ok t ∧ s'.st = s.st) ∧
      (c.action = some "list-names".toList → o = .text (Flow.flowSetPrintNames s.st.fset) ∧ s'.st = s.st) ∧
      (∀ a, c.action = some a → a.take 6 ≠ "trace-".toList → a ∉ ["set".toList, "delete".toList, "list".toList, "list-names".toList] → o = .unknown ∧ s'.st = s.st) := by
  obtain ⟨c0, m, hcase⟩ := serve_cases h
  rcases hcase with hc | ⟨x, hx, hh⟩
  · obtain ⟨h1, rfl, rfl⟩ := hc
    exact ⟨fun _ => ⟨rfl, rfl, rfl⟩, fun c hc => by rw [h1] at hc; cases hc⟩
  refine ⟨fun hn => (by rw [hn] at hx; cases hx), fun c hc => ?_⟩
  rw [hx] at hc; cases hc
  refine ⟨fun ha => ?_, fun ha => ?_, fun ha => ?_, fun ha => ?_, fun ha => ?_, fun a ha ht hno => ?_⟩
  · unfold handle at hh
    rw [ha] at hh
    cases hh
    exact ⟨rfl, rfl⟩
  · rw [handle_set ha] at hh
    unfold doSet at hh
    obtain ⟨⟨st, r⟩, e, hh⟩ := bind_ok hh
    cases hh
    exact ⟨r, rfl, e⟩
  · rw [handle_delete ha] at hh
    unfold doDelete at hh
    obtain ⟨⟨st, r⟩, e, hh⟩ := bind_ok hh
    cases hh
    exact ⟨r, rfl, e⟩
  · rw [handle_list ha] at hh
    obtain ⟨t, e, hh⟩ := bind_ok hh
    cases hh
    exact ⟨t, rfl, e, rfl⟩
  · rw [handle_names ha] at hh
    cases hh
    exact ⟨rfl, rfl⟩
  · simp only [List.mem_cons, List.not_mem_nil, or_false, not_or] at hno
    rw [handle_other ha ht hno.1 hno.2.1 hno.2.2.1 hno.2.2.2] at hh
    cases hh
    exact ⟨rfl, rfl⟩

/-- C63, with the client: if `nfqlb flow-set` sends a request with values that can be sent, the server executes `cmd_set` with exactly these values. -/
theorem C63_client (rq : (Nat → Nat) → List Nat → List Nat) (fq : List Flow.Flow → List Flow.Flow) (r : Request) (hw : r.WF) (text : List Char) (hs : cmdFlowSet r.opts = .ok text) (s s' : Srv) (k : Conn) (hk : k.bytes = text) (o : Out)
    (h : serve rq fq s k = .ok (s', o)) : ∃ x, o = .reply x ∧ FlowLb.cmdSet rq fq k.env s.st r.received.toCmd = .ok (s'.st, x) := by
  obtain ⟨m, e⟩ := C51_flow_set r hw text hs ⟨0, 0⟩
  have hr : request k.bytes = some r.received := by
    unfold request
    rw [hk, e]
    simp
  exact ((C63_answers rq fq s s' k o h).2 _ hr).2.1 rfl

/-- Requests, garbage, half a request, and a packet. -/
example : (do let (s, os) ← sRun [sSet "a" "lb1" "tcp", sConn "hello", sSet "b" "lb9" "udp", .arrive 0x0800 tcp4.bytes, sConn "action:list-names\neoc:\n", sConn "action:set\nname:c\n", sConn "action:delete\nname:a\neoc:\n", sConn "name:a\neoc:\n", sConn "action:x\neoc:\n"]; return (sView s, s.held.length, os)) =
    Res.ok (([], [], ⟨1, 4⟩), 1, [.reply .ok, .nothing, .reply .lb, .nothing, .text "[\n  \"a\"\n]\n".toList, .nothing, .reply .ok, .noAction, .unknown]) := by decide +kernel

example : effect (sSet "a" "lb1" "tcp") ≠ [] ∧ effect (sConn "hello") = [] := by
  refine ⟨?_, ?_⟩
  · have h : (match request "action:set\nname:a\ntarget:lb1\nprotocols:tcp\neoc:\n".toList with | some c => decide (c.action = some "set".toList) | none => false) = true := by decide +kernel
    have e : effect (sSet "a" "lb1" "tcp") = (match request "action:set\nname:a\ntarget:lb1\nprotocols:tcp\neoc:\n".toList with
      | none => []
      | some c => if c.action = some "set".toList then [.set fEnv c.toCmd] else if c.action = some "delete".toList then [.delete c.name] else []) := rfl
    rw [e]
    cases hr : request "action:set\nname:a\ntarget:lb1\nprotocols:tcp\neoc:\n".toList with
    | none => rw [hr] at h; cases h
    | some c =>
      rw [hr] at h
      dsimp only at h ⊢
      rw [if_pos (of_decide_eq_true h)]
      simp
  · have h : request "hello".toList = none := by decide +kernel
    have e : effect (sConn "hello") = (match request "hello".toList with
      | none => []
      | some c => if c.action = some "set".toList then [.set fEnv c.toCmd] else if c.action = some "delete".toList then [.delete c.name] else []) := rfl
    rw [e, h]

/-! ### C64 -/

/-- C64 for every history, and every client that waits for its answer: if the bytes are benign, the server goes on, and gives an answer. This includes all bytes without a complete request, and all requests that do not set
a flow. Missing, see `C64_violated`: clients that go away, requests to set a flow without name or target or with a name that begins with `#`, requests that are refused after a load-balancer was taken for them,
networks with a colon that are longer than 127 characters, priorities out of range. -/
theorem C64_goes_on_partial (rq : (Nat → Nat) → List Nat → List Nat) (hq : QSort rq) (fq : List Flow.Flow → List Flow.Flow) (hfq : Sorts fq) (conf : FlowLb.Conf) (s : Server.Sys) (hh : Srv.Hist rq fq conf s) (k : Conn) (hb : Benign k.bytes)
    (hg : k.gone = false) : ∃ s' o, serve rq fq s.srv k = .ok (s', o) := by
  obtain ⟨s', o, e, _⟩ := serve_ok hq hfq (hist_sinv hq hfq hh) k hb
  refine ⟨s', o, ?_⟩
  rw [e, hg]
  unfold send
  simp

/-- C64, clients that go away: if there is no complete request, the server goes on, in any state. -/
theorem C64_gone_partial (rq : (Nat → Nat) → List Nat → List Nat) (fq : List Flow.Flow → List Flow.Flow) (s : Srv) (k : Conn) (hr : request k.bytes = none) : ∃ s', serve rq fq s k = .ok (s', .nothing) := by
  obtain ⟨c, m, e⟩ := serve_eq rq fq s k
  rw [e, hr]
  exact ⟨_, rfl⟩

/-- C64, clients that go away, exactly: what differs from a client that waits is that the process ends if something is to be written. Nothing is written for incomplete requests, for trace flows that are accepted, and for a list
of a flow that does not exist. -/
theorem C64_gone_exact (rq : (Nat → Nat) → List Nat → List Nat) (fq : List Flow.Flow → List Flow.Flow) (s : Srv) (k : Conn) (s' : Srv) (o : Out) (h : serve rq fq s { k with gone := false } = .ok (s', o)) :
    serve rq fq s { k with gone := true } = if o = .nothing ∨ o = .text [] then .ok (s', o) else .die := by
  unfold serve at h ⊢
  simp only at h ⊢
  cases hr : receive s k.bytes with
  | ok x =>
    obtain ⟨s1, b⟩ := x
    rw [hr] at h
    simp only [Res.ok_bind] at h ⊢
    cases b with
    | false => cases h; rfl
    | true =>
      simp only [Bool.true_eq_false, if_false] at h ⊢
      obtain ⟨⟨s2, o2⟩, e, h⟩ := bind_ok h
      rw [e]
      simp only [Res.ok_bind, send, Bool.false_eq_true, false_and, if_false] at h ⊢
      cases h
      by_cases hn : o = .nothing
      · subst hn; rfl
      · by_cases ht : o = .text []
        · subst ht; rfl
        · rw [if_pos ⟨trivial, ht, hn⟩, if_neg (by simp [hn, ht])]; rfl
  | die => rw [hr] at h; cases h
  | ub => rw [hr] at h; cases h
  | hang => rw [hr] at h; cases h

example : (do let (_, os) ← sRun [.conn ⟨fEnv, fun _ => 0, "action:list\nname:x\neoc:\n".toList, true⟩, .conn ⟨fEnv, fun _ => 0, "action:trace-set\nname:t\nprotocols:tcp\neoc:\n".toList, true⟩]; return os) =
    Res.ok [.text [], .nothing] := by decide +kernel

/-- A request that can be executed. -/
theorem sBenign : Benign "action:set\nname:a\ntarget:lb1\nprotocols:tcp\npriority:7\neoc:\n".toList := by
  intro c hc
  have hA : (match request "action:set\nname:a\ntarget:lb1\nprotocols:tcp\npriority:7\neoc:\n".toList with
    | some c => decide (c.name = some "a".toList ∧ c.target = some "lb1".toList ∧ c.udpencap = 0 ∧ c.dsts = none ∧ c.srcs = none ∧ c.priority = 7 ∧ c.action = some "set".toList) | none => false) = true := by decide +kernel
  rw [hc] at hA
  obtain ⟨h1, h2, h3, h4, h5, h6, h7⟩ := of_decide_eq_true hA
  refine ⟨fun _ => ⟨⟨"a".toList, "lb1".toList, h1, h2, by decide, by decide, by show c.udpencap < 65536; omega⟩, ?_, ?_, by omega, by omega⟩, fun h => ?_⟩
  · intro m hm; rw [h4] at hm; cases hm
  · intro m hm; rw [h5] at hm; cases hm
  · rw [h7] at h; exact absurd h (by decide)

/-- A history, with a flow, and with bytes of a client that went away. -/
example : ∃ s, Srv.Hist isort fisort fConf s ∧ s.srv.st.fset.flows.length = 1 ∧ QSort isort ∧ Sorts fisort := by
  have key : (match serve isort fisort (Server.start false) ⟨fEnv, fun _ => 5, "action:set\nname:a\ntarget:lb1\nprotocols:tcp\npriority:7\neoc:\n".toList, false⟩ with
    | .ok (s, o) => decide (o = .reply .ok ∧ s.st.fset.flows.length = 1) | _ => false) = true := by decide +kernel
  cases e : serve isort fisort (Server.start false) ⟨fEnv, fun _ => 5, "action:set\nname:a\ntarget:lb1\nprotocols:tcp\npriority:7\neoc:\n".toList, false⟩ with
  | ok x =>
    obtain ⟨s1, o⟩ := x
    rw [e] at key
    obtain ⟨ho, hl⟩ := of_decide_eq_true key
    subst ho
    have h1 : Srv.Hist isort fisort fConf ⟨s1, []⟩ := .conn _ (.start false) sBenign e (by simp)
    have hr : request "action:delete\nname:a\n".toList = none := by decide +kernel
    obtain ⟨s2, e2⟩ := C64_gone_partial isort fisort s1 ⟨fEnv, fun _ => 5, "action:delete\nname:a\n".toList, true⟩ hr
    have h2 : Srv.Hist isort fisort fConf ⟨s2, []⟩ := .conn _ h1 (by intro c hc; rw [show request _ = none from hr] at hc; cases hc) e2 (by simp)
    refine ⟨_, h2, ?_, isort_ok, fisort_ok⟩
    have := ((C63_answers isort fisort s1 s2 _ _ e2).1 hr).2.1
    show s2.st.fset.flows.length = 1
    rw [this]
    exact hl
  | die => rw [e] at key; cases key
  | ub => rw [e] at key; cases key
  | hang => rw [e] at key; cases key

/-- C64 as stated is false: each of these stops the server (/repo/src/nfqlb/cmdFlowLb.c).
* A client that sends a complete request and closes the connection at once: the answer raises SIGPIPE (:472).
* A request to set a trace flow without a name: `strdup(NULL)` (:668).
* A request to set a flow without a name, if there is a flow: `strncmp` with NULL (/repo/src/lib/flow.c:344).
* A request to set a flow that exists without a target: `strcmp` with NULL (:584).
* A request with a new target that is refused: the load-balancer is released while the flow refers to it; the next list reads it. -/
theorem C64_violated :
    sRun [.conn ⟨fEnv, fun _ => 0, "action:list-names\neoc:\n".toList, true⟩] = .die ∧
    sRun [sConn "action:trace-set\nprotocols:tcp\neoc:\n"] = .ub ∧
    sRun [sSet "a" "lb1" "tcp", sConn "action:set\ntarget:lb1\neoc:\n"] = .ub ∧
    sRun [sSet "a" "lb1" "tcp", sConn "action:set\nname:a\neoc:\n"] = .ub ∧
    (do let (_, os) ← sRun [sSet "a" "lb1" "tcp", sSet "a" "lb2" "nonsense"]; return os) = .ok [.reply .ok, .reply .define] ∧
    sRun [sSet "a" "lb1" "tcp", sSet "a" "lb2" "nonsense", sConn "action:list\neoc:\n"] = .ub := by
  have stop : ∀ {α : Type} (x : Res α) (b : Res Unit), (match x with | .ok _ => .ok () | .die => .die | .ub => .ub | .hang => .hang) = b → b ≠ .ok () → x = (match b with | .die => .die | .hang => .hang | _ => .ub) := by
    intro α x b h hb
    cases x <;> cases h <;> first | rfl | exact absurd rfl hb
  refine ⟨?_, ?_, ?_, ?_, by decide +kernel, ?_⟩
  · exact stop _ .die (by decide +kernel) (by simp)
  · exact stop _ .ub (by decide +kernel) (by simp)
  · exact stop _ .ub (by decide +kernel) (by simp)
  · exact stop _ .ub (by decide +kernel) (by simp)
  · exact stop _ .ub (by decide +kernel) (by simp)

/-! ### C65 -/

/-- C65, apart: a request for trace flows changes no flow and no load-balancer; any other bytes change no trace flow. -/
theorem C65_apart (rq : (Nat → Nat) → List Nat → List Nat) (fq : List Flow.Flow → List Flow.Flow) (s s' : Srv) (k : Conn) (o : Out) (h : serve rq fq s k = .ok (s', o)) :
    ((∃ c a, request k.bytes = some c ∧ c.action = some a ∧ a.take 6 = "trace-".toList) → s'.st = s.st) ∧
    (¬ (∃ c a, request k.bytes = some c ∧ c.action = some a ∧ a.take 6 = "trace-".toList) → s'.trace = s.trace ∧ s'.names = s.names) := by
  obtain ⟨c0, m, hcase⟩ := serve_cases h
  rcases hcase with hc | ⟨x, hx, hh⟩
  · obtain ⟨h1, rfl, rfl⟩ := hc
    exact ⟨fun _ => rfl, fun _ => ⟨rfl, rfl⟩⟩
  refine ⟨?_, fun hno => ?_⟩
  · rintro ⟨c, a, h1, h2, h3⟩
    rw [hx] at h1
    cases h1
    rw [handle_trace h2 h3] at hh
    exact (trace_frame hh).1
  · obtain ⟨h1, h2, _⟩ := plain_frame hh (fun a ha ht => hno ⟨x, a, hx, ha, ht⟩)
    exact ⟨h1, h2⟩

/-- C65, the names that are printed for packets: in every history each trace flow has a copy of its own name, that no other trace flow has; names of trace flows are unique. -/
theorem C65_names_partial (rq : (Nat → Nat) → List Nat → List Nat) (hq : QSort rq) (fq : List Flow.Flow → List Flow.Flow) (hfq : Sorts fq) (conf : FlowLb.Conf) (s : Server.Sys) (hh : Srv.Hist rq fq conf s) :
    (∀ f ∈ s.srv.trace.flows, f.userRef ≠ 0 ∧ s.srv.names f.userRef = some f.name) ∧ s.srv.trace.flows.Pairwise (fun f g => f.userRef ≠ g.userRef ∧ f.name ≠ g.name) := by
  have hi := hist_sinv hq hfq hh
  exact ⟨hi.tname, hi.tref.and hi.tset.names⟩

/-- C65, the answers: lists of trace flows come from the trace flows (names as in C66: JSON if they are plain text), and change nothing; a trace flow is deleted with an answer; unknown actions are answered. -/
theorem C65_answers (rq : (Nat → Nat) → List Nat → List Nat) (fq : List Flow.Flow → List Flow.Flow) (s s' : Srv) (k : Conn) (o : Out) (h : serve rq fq s k = .ok (s', o)) (c : FlowCmd) (hc : request k.bytes = some c) :
    (c.action = some "trace-list".toList → ∃ t, o = .text t ∧ Flow.flowSetPrint s.trace c.name k.cnt none = .ok t ∧ s'.trace = s.trace) ∧
    (c.action = some "trace-list-names".toList → o = .text (Flow.flowSetPrintNames s.trace) ∧ s'.trace = s.trace ∧
      ((∀ f ∈ s.trace.flows, f.name.all plainChar = true) → ∃ t, o = .text t ∧ parse t = some (strings (s.trace.flows.map (fun f => f.name))))) ∧
    (c.action = some "trace-delete".toList → (c.name = none → o = .noName ∧ s'.trace = s.trace) ∧ ∀ n, c.name = some n → o = .ok ∧ ∃ p u, Flow.flowDelete s.trace n = .ok (s'.trace, p, u)) ∧
    (c.action = some "trace-set".toList → ∃ n p ok, c.name = some n ∧ Flow.flowDefine rq fq s.trace (traceArgs c p) = .ok (s'.trace, ok) ∧ s'.names p = some n ∧ o = if ok then .nothing else .refused) := by
  obtain ⟨c0, m, hcase⟩ := serve_cases h
  rcases hcase with hn | ⟨x, hx, hh⟩
  · rw [hn.1] at hc; cases hc
  rw [hx] at hc; cases hc
  refine ⟨fun ha => ?_, fun ha => ?_, fun ha => ?_, fun ha => ?_⟩
  · rw [handle_trace ha (by decide)] at hh
    unfold traceHandle at hh
    rw [if_neg (by decide), if_neg (by decide), if_pos rfl] at hh
    obtain ⟨t, e, hh⟩ := bind_ok hh
    cases hh
    exact ⟨t, rfl, e, rfl⟩
  · rw [handle_trace ha (by decide)] at hh
    unfold traceHandle at hh
    rw [if_neg (by decide), if_neg (by decide), if_neg (by decide), if_pos rfl] at hh
    cases hh
    exact ⟨rfl, rfl, fun hp => ⟨_, rfl, C61_names_partial s.trace hp⟩⟩
  · rw [handle_trace ha (by decide)] at hh
    unfold traceHandle at hh
    rw [if_neg (by decide), if_pos rfl] at hh
    unfold traceDelete at hh
    cases hn : c.name with
    | none =>
      rw [hn] at hh
      cases hh
      exact ⟨fun _ => ⟨rfl, rfl⟩, fun n h => (by cases h)⟩
    | some n =>
      rw [hn] at hh
      simp only at hh
      obtain ⟨⟨tr, p, u⟩, e, hh⟩ := bind_ok hh
      obtain ⟨s2, e2, hh⟩ := bind_ok hh
      cases hh
      refine ⟨fun h => (by cases h), fun n' h => ?_⟩
      cases h
      refine ⟨rfl, p, u, ?_⟩
      have : s'.trace = tr := by
        unfold freeName at e2
        split at e2
        · cases e2; rfl
        · split at e2 <;> cases e2; rfl
      rw [this]
      exact e
  · rw [handle_trace ha (by decide)] at hh
    unfold traceHandle at hh
    rw [if_pos rfl] at hh
    unfold traceSet at hh
    cases hn : c.name with
    | none => rw [hn] at hh; cases hh
    | some n =>
      rw [hn] at hh
      simp only at hh
      obtain ⟨⟨tr, ok⟩, e, hh⟩ := bind_ok hh
      cases hh
      exact ⟨n, s.nextName, ok, rfl, e, by simp [setName], rfl⟩

/-- A trace flow that is defined, listed and deleted. -/
example : (do
    let (s, os) ← sRun [sSet "a" "lb1" "tcp", sConn "action:trace-set\nname:t\nprotocols:tcp\neoc:\n", sConn "action:trace-list-names\neoc:\n", sConn "action:list-names\neoc:\n"]
    let (s', os') ← Server.run isort fisort fConf s [sConn "action:trace-delete\nname:t\neoc:\n", sConn "action:trace-delete\neoc:\n", sConn "action:trace-list-names\neoc:\n"]
    return (sView s, copies s.srv 9, os, copies s'.srv 9, os')) =
    Res.ok ((["a"], ["t"], ⟨1, 4⟩), 1, [.reply .ok, .nothing, .text "[\n  \"t\"\n]\n".toList, .text "[\n  \"a\"\n]\n".toList], 0, [.ok, .noName, .text "[]\n".toList]) := by decide +kernel

/-- C65 as stated is false (/repo/src/nfqlb/cmdFlowLb.c).
* A trace flow that is accepted is not answered at all (:676): the client reports an error.
* The copy of the name is not released if the trace flow is refused or defined again (:668-677): here one trace flow, and 3 copies. -/
theorem C65_violated :
    (do let (s, os) ← sRun [sConn "action:trace-set\nname:t\nprotocols:tcp\neoc:\n", sConn "action:trace-set\nname:t\nprotocols:udp\neoc:\n", sConn "action:trace-set\nname:t\nprotocols:nonsense\neoc:\n"]
        return (s.srv.trace.flows.length, copies s.srv 9, os)) = Res.ok (1, 3, [.nothing, .nothing, .refused]) := by decide +kernel

/-! ### C66 -/

/-- C66: a flow is seen in the next list of names if a request to set it was answered with `OK`, and not seen if it was deleted; if all names are plain text (see C61). -/
theorem C66_visible_partial (rq : (Nat → Nat) → List Nat → List Nat) (hq : QSort rq) (fq : List Flow.Flow → List Flow.Flow) (hfq : Sorts fq) (conf : FlowLb.Conf) (s : Server.Sys) (hh : Srv.Hist rq fq conf s) (k k' : Conn) (s1 s2 : Srv) (o o' : Out)
    (c c' : FlowCmd) (n : List Char) (hb : Benign k.bytes) (h1 : request k.bytes = some c) (hn : c.name = some n) (e1 : serve rq fq s.srv k = .ok (s1, o)) (h2 : request k'.bytes = some c') (ha' : c'.action = some "list-names".toList)
    (e2 : serve rq fq s1 k' = .ok (s2, o')) (hp : ∀ f ∈ s1.st.fset.flows, f.name.all plainChar = true) :
    ∃ t l, o' = .text t ∧ parse t = some (strings l) ∧ (c.action = some "set".toList → o = .reply .ok → n ∈ l) ∧ (c.action = some "delete".toList → n ∉ l) := by
  obtain ⟨ht, _⟩ := ((C63_answers rq fq s1 s2 k' o' e2).2 c' h2).2.2.2.2.1 ha'
  have hA := (C63_answers rq fq s.srv s1 k o e1).2 c h1
  have hi := hist_sinv hq hfq hh
  refine ⟨_, _, ht, C61_names_partial s1.st.fset hp, fun ha ho => ?_, fun ha => ?_⟩
  · obtain ⟨r, hr, e⟩ := hA.2.1 ha
    rw [hr] at ho
    cases ho
    obtain ⟨f, hf, hfn, _⟩ := FlowLb.set_done hq hfq hi.inv ((hb c h1).1 ha).1 e
    have hfn : some f.name = c.name := hfn
    rw [hn] at hfn
    cases hfn
    exact List.mem_map.2 ⟨f, hf, rfl⟩
  · obtain ⟨r, hr, e⟩ := hA.2.2.1 ha
    rw [hn] at e
    have := (delete_gone hi.inv e).2
    intro hmem
    obtain ⟨f, hf, hfn⟩ := List.mem_map.1 hmem
    exact this f hf hfn

/-- C66, what is listed: after a request to set a flow that was answered with `OK`, the next list of this flow is a JSON object that says what the flow is (see C61), with the name, the priority, the port for encapsulation and
the target of the request, if these can be listed. -/
theorem C66_listed_partial (rq : (Nat → Nat) → List Nat → List Nat) (hq : QSort rq) (fq : List Flow.Flow → List Flow.Flow) (hfq : Sorts fq) (conf : FlowLb.Conf) (s : Server.Sys) (hh : Srv.Hist rq fq conf s) (k k' : Conn) (s1 s2 : Srv) (o' : Out)
    (c c' : FlowCmd) (n t : List Char) (hb : Benign k.bytes) (h1 : request k.bytes = some c) (ha : c.action = some "set".toList) (hn : c.name = some n) (ht : c.target = some t) (e1 : serve rq fq s.srv k = .ok (s1, .reply .ok))
    (hcl : CanList (FlowLb.flowArgs c.toCmd 0)) (htp : t.all plainChar = true)
    (h2 : request k'.bytes = some c') (ha' : c'.action = some "list".toList) (hn' : c'.name = some n) (e2 : serve rq fq s1 k' = .ok (s2, o')) :
    ∃ txt f d, o' = .text txt ∧ parse txt = some d.json ∧ f ∈ s1.st.fset.flows ∧ Lists f d ∧
      d.name = n ∧ (d.priority : Int) = c.priority ∧ d.udpencap = c.udpencap ∧ d.target = some t ∧ d.count = k'.cnt f := by
  obtain ⟨txt, rfl, hpr, _⟩ := ((C63_answers rq fq s1 s2 k' o' e2).2 c' h2).2.2.2.1 ha'
  obtain ⟨r, hr, e⟩ := ((C63_answers rq fq s.srv s1 k _ e1).2 c h1).2.1 ha
  cases hr
  have hi := hist_sinv hq hfq hh
  have hi1 : SInv ⟨s1, s.held⟩ := hist_sinv hq hfq (.conn (conf := conf) k hh hb e1 (by simp))
  obtain ⟨f, hf, g1, g2, g3, g4, g5, ⟨l, g6, g7⟩, _⟩ := FlowLb.set_done hq hfq hi.inv ((hb c h1).1 ha).1 e
  have g1 : some f.name = c.name := g1
  rw [hn] at g1
  have g1 := Option.some.inj g1
  have g7 : some l.target = c.target := g7
  rw [ht] at g7
  have g7 := Option.some.inj g7
  have hfrom : Flow.From rq f (FlowLb.flowArgs c.toCmd f.userRef) := ⟨by rw [g1]; exact hn.symm ▸ rfl, g5, g2, rfl, g3⟩
  have hp := Flow.from_printable hq hfrom ⟨hcl.name, hcl.priority, hcl.protocols, hcl.dports, hcl.sports, hcl.mtch⟩
  obtain ⟨d, txt', k1, k2, k3, k4, k5⟩ := Flow.printFlow_ok hp (k'.cnt f) (some (lb2string s1.st)) (some t) (.inr ⟨_, _, rfl, rfl, by unfold lb2string; rw [if_neg g4, g6, ← g7], htp⟩)
  have hsame : txt = txt' := by
    have e : Flow.flowSetPrint s1.st.fset (some n) k'.cnt (some (lb2string s1.st)) =
      (match s1.st.fset.flows.find? (fun f => decide (n = f.name)) with | none => .ok [] | some f => Flow.printFlow f (k'.cnt f) (some (lb2string s1.st))) := rfl
    rw [hn', e] at hpr
    cases hfi : s1.st.fset.flows.find? (fun f => decide (n = f.name)) with
    | none =>
      have := List.find?_eq_none.1 hfi f hf
      simp [g1] at this
    | some g =>
      have q1 := List.mem_of_find?_eq_some hfi
      have q2 := List.find?_some hfi
      simp only [decide_eq_true_eq] at q2
      have : g = f := names_unique s1.st.fset.flows hi1.inv.flowset.names g q1 f hf (by rw [g1, q2])
      subst this
      rw [hfi] at hpr
      simp only at hpr
      rw [k1] at hpr
      cases hpr
      rfl
  subst hsame
  refine ⟨txt, f, d, rfl, by simpa using parse_reads k5 (w := []) (Flow.ws_of (by decide)), hf, k2, by rw [k2.name, g1], by rw [k2.priority]; exact g2, by rw [k2.udpencap]; exact g3, k4, k3⟩

example : (do let (_, os) ← sRun [sSet "a" "lb1" "tcp", sConn "action:list\nname:a\neoc:\n"]; return os) =
    Res.ok [.reply .ok, .text "{\n  \"name\": \"a\",\n  \"priority\": 0,\n  \"protocols\": [ \"tcp\" ],\n  \"matches_count\": 5,\n  \"user_ref\": \"lb1\"\n}".toList] := by decide +kernel

/-- Set, list, delete, list. -/
example : (do let (_, os) ← sRun [sSet "a" "lb1" "tcp", sSet "b" "lb2" "udp", sConn "action:list-names\neoc:\n", sConn "action:delete\nname:a\neoc:\n", sConn "action:list-names\neoc:\n"]; return os) =
    Res.ok [.reply .ok, .reply .ok, .text "[\n  \"a\",\n  \"b\"\n]\n".toList, .reply .ok, .text "[\n  \"b\"\n]\n".toList] := by decide +kernel

/-- C66 as stated is false: a name with a quotation mark is accepted, and then the list of names is not JSON, for all flows. -/
theorem C66_violated :
    (do let (_, os) ← sRun [sSet "a\"b" "lb1" "tcp", sConn "action:list-names\neoc:\n"]; return os) = Res.ok [.reply .ok, .text "[\n  \"a\"b\"\n]\n".toList] ∧
    (parse "[\n  \"a\"b\"\n]\n".toList).isNone = true := by
  refine ⟨by decide +kernel, by decide +kernel⟩

end Nfqlb.Props
