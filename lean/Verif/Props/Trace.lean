import Verif.Proof.Trace
import Verif.Props.Server

/-! C67, C68 and C69: packets with and without tracing, and the selection of what is traced. -/

set_option autoImplicit false

namespace Nfqlb.Props

open Nfqlb Nfqlb.Spec Nfqlb.Spec.Srv Nfqlb.Spec.FLB Nfqlb.Spec.RS Nfqlb.Spec.FL Nfqlb.Spec.Pkt Nfqlb.Spec.Trc Nfqlb.Maglev

/-! ### Examples -/

/-- A flow for TCP, and a trace flow for TCP. -/
def tSys : Res (Server.Sys × List Server.Out) := sRun [sSet "a" "lb1" "tcp", sConn "action:trace-set\nname:t\nprotocols:tcp\neoc:\n"]

/-- An echo request of which 6 bytes of the ICMP header are there, a complete one, and one of which nothing but the type is there. -/
def ping6 : V4 := { tcp4 with proto := 1, payload := [8, 0, 0, 0, 1, 2] }
def ping8 : V4 := { tcp4 with proto := 1, payload := [8, 0, 0, 0, 1, 2, 0, 9] }
def ping1 : V4 := { tcp4 with proto := 1, payload := [8] }

/-- A TCP packet with data. -/
def tcpX : V4 := { tcp4 with payload := tcp4.payload ++ [1, 2, 3, 4] }

/-! ### C67 -/

/-- C67: whatever is traced, the state afterwards and the decision are the same as without tracing. -/
theorem C67_same (tr : Trace.Tr) (conf : FlowLb.Conf) (env : FlowLb.Env) (st st' : FlowLb.St) (proto : Nat) (data : Packet) (a : LbAction) (t : List Char)
    (h : Trace.pktHandle tr conf env st proto data = .ok (st', a, t)) : FlowLb.pktHandle conf env st proto data = .ok (st', a) := (Trace.handle_facts h).1

/-- The same for both parts of the packet handler, between which other threads may do something. -/
theorem C67_same_parts (tr : Trace.Tr) (conf : FlowLb.Conf) (env : FlowLb.Env) (st st' : FlowLb.St) (t : List Char) :
    (∀ proto data r n, Trace.pktBegin tr conf st proto data = .ok (st', r, n, t) → FlowLb.pktBegin conf st proto data = .ok (st', r)) ∧
    ∀ lb p n len a, Trace.pktEnd tr conf env st lb p n len = .ok (st', a, t) → FlowLb.pktEnd conf env st lb p = .ok (st', a) :=
  ⟨fun _ _ _ _ h => (Trace.begin_facts h).1, fun _ _ _ _ _ h => (Trace.end_facts h).1⟩

/-- If nothing is selected, nothing is written. -/
theorem C67_silent (tr : Trace.Tr) (h0 : tr.mask = 0) (conf : FlowLb.Conf) (env : FlowLb.Env) (st st' : FlowLb.St) (proto : Nat) (data : Packet) (a : LbAction) (t : List Char)
    (h : Trace.pktHandle tr conf env st proto data = .ok (st', a, t)) : t = [] := by
  have hoff : ∀ b, tr.on b = false := by intro b; unfold Trace.Tr.on; rw [h0]; exact Nat.zero_testBit b
  obtain ⟨_, p, _, h1, _⟩ := Trace.handle_facts h
  refine h1 ⟨hoff 1, hoff 2, hoff 4⟩ ?_
  intro n hn
  unfold Trace.traceFind at hn
  rw [hoff 6] at hn
  cases hn; rfl

/-- If only `flows` is selected, nothing is written for a packet that no trace flow matches. -/
theorem C67_others (tr : Trace.Tr) (h0 : tr.mask = 64) (conf : FlowLb.Conf) (env : FlowLb.Env) (st st' : FlowLb.St) (proto : Nat) (data : Packet) (a : LbAction) (t : List Char) (p : Parsed) (hp : getHashKey 0 proto data = .ok p)
    (v : Nat) (hno : Flow.flowLookup tr.set p.key proto data 0 = .ok (0, v)) (h : Trace.pktHandle tr conf env st proto data = .ok (st', a, t)) : t = [] := by
  obtain ⟨_, p', hp', h1, _⟩ := Trace.handle_facts h
  rw [hp] at hp'
  cases hp'
  have hon : ∀ b, tr.on b = Nat.testBit 64 b := by intro b; unfold Trace.Tr.on; rw [h0]
  refine h1 ⟨by rw [hon]; decide, by rw [hon]; decide, by rw [hon]; decide⟩ ?_
  intro n hn
  unfold Trace.traceFind at hn
  rw [if_pos (by rw [hon]; decide), hno, Res.ok_bind] at hn
  cases hn; rfl

/-- If `flows` is selected, for a packet that is no fragment and that a trace flow matches the text begins with the name of the trace flow, and it has the fwmark that is decided. (No fwmark is written if a UDP packet to a port for encapsulation
is too short for SCTP; the packet is dropped then.) -/
theorem C67_tells (tr : Trace.Tr) (hs : tr.mask.testBit 6 = true) (conf : FlowLb.Conf) (env : FlowLb.Env) (st st' : FlowLb.St) (proto : Nat) (data : Packet) (a : LbAction) (t : List Char) (p : Parsed) (hp : getHashKey 0 proto data = .ok p)
    (h0 : 0 ≤ p.rc) (h4 : p.rc % 4 = 0) (n v : Nat) (hn : n ≠ 0) (hf : Flow.flowLookup tr.set p.key proto data 0 = .ok (n, v)) (h : Trace.pktHandle tr conf env st proto data = .ok (st', a, t)) :
    (∃ name rest, tr.names n = some name ∧ t = "\nMatch for trace-flow: ".toList ++ name ++ ['\n'] ++ rest) ∧
    ∀ fw, (a = .verdict fw ∨ ∃ k, a = .first k fw) → Tells t fw ∨ (fw = -1 ∧ ∃ e q, getHashKey e proto data = .ok q ∧ q.rc < 0) := by
  obtain ⟨_, p', hp', _, h2⟩ := Trace.handle_facts h
  rw [hp] at hp'
  cases hp'
  have hfind : Trace.traceFind tr p.key proto data = .ok n := by
    unfold Trace.traceFind
    rw [if_pos (by exact hs), hf]; rfl
  obtain ⟨⟨v, t0, u, e1, e2⟩, h3⟩ := h2 n hn h0 h4 hfind
  refine ⟨?_, ?_⟩
  · unfold Trace.traceMatch at e1
    rw [if_neg hn] at e1
    cases hm : tr.names n with
    | none => rw [hm] at e1; cases e1
    | some name =>
      rw [hm] at e1
      obtain ⟨i, _, e1⟩ := Server.bind_ok e1
      simp only [Res.pure_eq, Res.ok.injEq] at e1
      exact ⟨name, _, rfl, by rw [e2, ← e1]; simp only [List.append_assoc]; rfl⟩
  · intro fw hfw
    refine h3 fw ?_
    rcases hfw with rfl | ⟨k, rfl⟩ <;> rfl

/-- Tracing stops nothing (partial): in every history of the server, whatever is selected, for a packet with all 8 bytes of its ICMP header if it has one, that is no UDP packet to port 0, with trace flows whose match expressions do not
exceed 32 bits, and without other threads between the steps of the packet handler, the packet handler with tracing returns if it does without, and has the same result. Missing: see `C67_violated`. -/
theorem C67_total_partial (rq : (Nat → Nat) → List Nat → List Nat) (hq : QSort rq) (fq : List Flow.Flow → List Flow.Flow) (hfq : Sorts fq) (conf : FlowLb.Conf) (s : Server.Sys) (hh : Srv.Hist rq fq conf s) (mask : Nat) (env : FlowLb.Env)
    (proto : Nat) (data : Packet) (hi : IcmpWhole proto data) (h0 : ¬ UdpPort0 proto data) (hn : NoWrap s.srv.trace) (st' : FlowLb.St) (a : LbAction)
    (h : FlowLb.pktHandle conf env s.srv.st proto data = .ok (st', a)) : ∃ t, Trace.pktHandle (trOf s.srv mask) conf env s.srv.st proto data = .ok (st', a, t) :=
  Trace.handle_traced (Server.hist_sinv hq hfq hh) hn mask hi h0 h

/-- With everything selected, and with only `flows`. -/
example : (do
    let (s, _) ← tSys
    let (_, a, t) ← Trace.pktHandle (trOf s.srv 64) fConf fEnv s.srv.st 0x0800 tcp4.bytes
    let (_, b, u) ← Trace.pktHandle (trOf s.srv 0xff) fConf fEnv s.srv.st 0x0800 tcp4.bytes
    let (_, c, w) ← Trace.pktHandle (trOf s.srv 64) fConf fEnv s.srv.st 0x0800 ping8.bytes
    return [(a, String.ofList t), (b, String.ofList u), (c, String.ofList w)]) = Res.ok
    [(.verdict 5, "\nMatch for trace-flow: t\nproto=tcp, len=44, ::ffff:10.0.0.1 1024 -> ::ffff:192.168.1.7 80\ntarget=lb1, fwmark=5\n"),
     (.verdict 5, "\nMatch for trace-flow: t\nproto=tcp, len=44, ::ffff:10.0.0.1 1024 -> ::ffff:192.168.1.7 80\ntarget=lb1, fwmark=5\nUsing LB; lb1\nPacket; proto=6, len=44, fwmark=5\n"),
     (.verdict 78, "\nMatch for trace-flow: t\nICMP_ECHO: id=258, seq=9\nproto=icmp, len=32, ::ffff:10.0.0.1 0 -> ::ffff:192.168.1.7 0\nNO target, fwmark=78\n")] := by decide +kernel

/-- The hypotheses about packets: a TCP packet, and a complete echo request. -/
example : IcmpWhole 0x0800 tcp4.bytes ∧ ¬ UdpPort0 0x0800 tcp4.bytes := by
  refine ⟨⟨fun _ b0 _ h => ?_, fun h => absurd h (by decide)⟩, ?_⟩
  · exact absurd h (by decide +kernel)
  · rintro ⟨p, h1, h2, _⟩
    have : (match getHashKey 0 0x0800 tcp4.bytes with | .ok p => decide (p.key.proto = (6, 0)) | _ => false) = true := by decide +kernel
    rw [h1] at this
    rw [of_decide_eq_true this] at h2
    exact absurd h2 (by decide)

example : IcmpWhole 0x0800 ping8.bytes := by
  refine ⟨fun _ b0 h _ => ?_, fun h => absurd h (by decide)⟩
  have h1 : ping8.bytes[0]? = some 0x46 := by decide +kernel
  rw [h1] at h
  cases h
  decide +kernel

/-- C67 as stated is false: tracing can stop the packet handler where it goes on without tracing.
* The ICMP header is read without a test whether it is in the packet, /repo/src/lib/iputils.c:394-409 and :433-445; the last bytes of an echo request are not needed for anything else.
* The name of the target is read after the reference to the load-balancer was given back, /repo/src/nfqlb/cmdFlowLb.c:190-198 and :217: if the flow was deleted after the lookup, it was freed.
* The name of the trace flow is read after the lock was released, /repo/src/nfqlb/cmdFlowLb.c:140-142: if the trace flow was deleted in between, it was freed. -/
theorem C67_violated :
    (do let (s, _) ← tSys; let (_, a) ← FlowLb.pktHandle fConf fEnv s.srv.st 0x0800 ping6.bytes; return a) = Res.ok (.verdict 78) ∧
    (do let (s, _) ← tSys; let (_, a, _) ← Trace.pktHandle (trOf s.srv 64) fConf fEnv s.srv.st 0x0800 ping6.bytes; return a) = Res.ub ∧
    (do
      let (s, _) ← tSys
      let (st, r) ← FlowLb.pktBegin fConf s.srv.st 0x0800 tcp4.bytes
      let (st, _) ← FlowLb.cmdDelete st (some "a".toList)
      match r with
      | .has lb p => do
        let (_, a) ← FlowLb.pktEnd fConf fEnv st lb p
        return a
      | .done _ => .die) = Res.ok (.verdict 5) ∧
    (do
      let (s, _) ← tSys
      let (st, r, n, _) ← Trace.pktBegin (trOf s.srv 64) fConf s.srv.st 0x0800 tcp4.bytes
      let (st, _) ← FlowLb.cmdDelete st (some "a".toList)
      match r with
      | .has lb p => do
        let (_, a, _) ← Trace.pktEnd (trOf s.srv 64) fConf fEnv st lb p n tcp4.bytes.length
        return a
      | .done _ => .die) = Res.ub ∧
    (do
      let (s, _) ← tSys
      let p ← getHashKey 0 0x0800 tcp4.bytes
      let n ← Trace.traceFind (trOf s.srv 64) p.key 0x0800 tcp4.bytes
      let (s, _) ← Server.step isort fisort fConf s (sConn "action:trace-delete\nname:t\neoc:\n")
      Trace.traceMatch (trOf s.srv 64) n p.key 0x0800 tcp4.bytes 0) = Res.ub := by
  refine ⟨by decide +kernel, by decide +kernel, by decide +kernel, by decide +kernel, by decide +kernel⟩

/-! ### C68 -/

/-- C68, a packet arrives (partial): in every history of the server, as long as the match expressions of the flows do not exceed 32 bits and the table of the tier is one that commands have made, every packet that is not cut off within the
headers that decide, and that is no UDP packet to port 0, gets a decision or a load-balancer; what comes then is a history again. Missing: see `C68_violated`. -/
theorem C68_arrive_partial (rq : (Nat → Nat) → List Nat → List Nat) (hq : QSort rq) (fq : List Flow.Flow → List Flow.Flow) (hfq : Sorts fq) (conf : FlowLb.Conf) (ht : ∀ d own, conf.tier = some (d, own) → Reachable d) (s : Server.Sys)
    (hh : Srv.Hist rq fq conf s) (hn : NoWrap s.srv.st.fset) (proto : Nat) (data : Packet) (hw : Whole proto data) (h0 : ¬ UdpPort0 proto data) :
    ∃ s', Server.step rq fq conf s (.arrive proto data) = .ok (s', .nothing) ∧ Srv.Hist rq fq conf s' := by
  have hi := Server.hist_sinv hq hfq hh
  obtain ⟨st, r, e, _⟩ := Server.pktBegin_total hi.inv (fun f hf => (hi.draw f hf).1) hn (fun d own h => (ht d own h).inv) hw h0
  have e2 : ∃ s', Server.step rq fq conf s (.arrive proto data) = .ok (s', .nothing) := by
    simp only [Server.step, Server.packet, FlowLb.step]
    have e' : FlowLb.pktBegin conf s.srv.st proto data = .ok (st, r) := e
    rw [e']
    cases r <;> exact ⟨_, rfl⟩
  obtain ⟨s', e2⟩ := e2
  exact ⟨s', e2, .arrive proto data hh h0 e2⟩

/-- C68: in every state, a packet that is not whole stops the process: memory outside the packet is read, or the loop over the headers does not end. So nothing is missing in the list of packets in `C68_arrive_partial`. -/
theorem C68_exact (rq : (Nat → Nat) → List Nat → List Nat) (fq : List Flow.Flow → List Flow.Flow) (conf : FlowLb.Conf) (s : Server.Sys) (proto : Nat) (data : Packet) (hw : ¬ Whole proto data) :
    Server.step rq fq conf s (.arrive proto data) = .ub ∨ Server.step rq fq conf s (.arrive proto data) = .hang := by
  have key : ∀ r : Res Parsed, getHashKey 0 proto data = r → (r = .ub ∨ r = .hang) → FlowLb.pktBegin conf s.srv.st proto data = .ub ∨ FlowLb.pktBegin conf s.srv.st proto data = .hang := by
    intro r e h
    unfold FlowLb.pktBegin
    rw [e]
    rcases h with rfl | rfl
    · exact .inl rfl
    · exact .inr rfl
  have h2 : FlowLb.pktBegin conf s.srv.st proto data = .ub ∨ FlowLb.pktBegin conf s.srv.st proto data = .hang := by
    by_cases h4 : proto = 0x0800
    · subst h4
      rcases v4_exact 0 data with ⟨_, e⟩ | ⟨h, _⟩
      · exact key _ (show getHashKey 0 0x0800 data = .ub from e) (.inl rfl)
      · exact absurd ⟨fun _ => h, fun e => absurd e (by decide)⟩ hw
    · by_cases h6 : proto = 0x86dd
      · subst h6
        rcases v6_exact 0 data with ⟨_, _, e⟩ | ⟨_, _, e⟩ | ⟨h, h', _⟩
        · exact key _ (show getHashKey 0 0x86dd data = .ub from e) (.inl rfl)
        · exact key _ (show getHashKey 0 0x86dd data = .hang from e) (.inr rfl)
        · exact absurd ⟨fun e => absurd e (by decide), fun _ => ⟨h, h'⟩⟩ hw
      · exact absurd ⟨fun e => absurd e h4, fun e => absurd e h6⟩ hw
  simp only [Server.step, Server.packet, FlowLb.step]
  rcases h2 with e | e
  · left; rw [show FlowLb.pktBegin conf s.srv.st proto data = _ from e]; rfl
  · right; rw [show FlowLb.pktBegin conf s.srv.st proto data = _ from e]; rfl

example : ¬ Whole 0x0800 ping1.bytes := fun h => h.1 rfl
  ⟨by decide +kernel, 0x46, 0x40, 0, by decide +kernel, by decide, by decide +kernel, by decide +kernel, by decide, by decide +kernel, Or.inr ⟨by decide +kernel, by decide +kernel⟩⟩

/-- C68, a packet that has a load-balancer is finished, whatever happened in between, as long as the tables are ones that commands have made. -/
theorem C68_finish_partial (rq : (Nat → Nat) → List Nat → List Nat) (hq : QSort rq) (fq : List Flow.Flow → List Flow.Flow) (hfq : Sorts fq) (conf : FlowLb.Conf) (s : Server.Sys)
    (hh : Srv.Hist rq fq conf s) (env : FlowLb.Env) (hm : ∀ i, Reachable (env.mag i)) (i : Nat) :
    ∃ s', Server.step rq fq conf s (.finish env i) = .ok (s', .nothing) ∧ Srv.Hist rq fq conf s' := by
  have hi := Server.hist_sinv hq hfq hh
  have e2 : ∃ s', Server.step rq fq conf s (.finish env i) = .ok (s', .nothing) := by
    simp only [Server.step, Server.packet, FlowLb.step]
    cases hx : s.held[i]? with
    | none => exact ⟨_, rfl⟩
    | some x =>
      obtain ⟨lb, p⟩ := x
      obtain ⟨st, a, e⟩ := Server.pktEnd_total hi.inv (i := i) hx (Server.hist_held hh _ (List.mem_of_getElem? hx)) conf (fun i => (hm i).inv)
      have e' : FlowLb.pktEnd conf env s.srv.st lb p = .ok (st, a) := e
      dsimp only
      rw [e']
      exact ⟨_, rfl⟩
  obtain ⟨s', e2⟩ := e2
  exact ⟨s', e2, .finish env i hh e2⟩

/-- The hypotheses about packets and flows: a TCP packet, a complete echo request, a flow with a match expression. -/
example : Whole 0x0800 tcp4.bytes ∧ Whole 0x0800 ping8.bytes := by
  refine ⟨Server.whole_of ⟨fun _ b0 _ h => ?_, fun h => absurd h (by decide)⟩, Server.whole_of ⟨fun _ b0 h _ => ?_, fun h => absurd h (by decide)⟩⟩
  · exact absurd h (by decide +kernel)
  · have h1 : ping8.bytes[0]? = some 0x46 := by decide +kernel
    rw [h1] at h
    cases h
    decide +kernel

example : (do let (s, os) ← sRun [sConn "action:set\nname:a\ntarget:lb1\nprotocols:tcp\nmatch:tcp[13:1]&2=2\neoc:\n", .arrive 0x0800 tcp4.bytes, .arrive 0x0800 ping8.bytes, .arrive 0x0806 [1, 2, 3], .finish fEnv 0]
              return (s.srv.st.fset.flows.all (fun f => match f.mtch with | some m => m.all (fun i => decide (i.offset + i.nbytes < 4294967296)) | none => false), s.held.length, os.length)) = Res.ok (true, 0, 5) := by decide +kernel

/-- C68 as stated is false: each of these packets stops the process or a thread of it.
* An echo request that ends after the type of the ICMP header (see C12).
* The first fragment of an IPv6 packet with an extension header after the fragment header (see C13): the loop does not end.
* A complete TCP packet with data, if there is a flow with the match expression `tcp[4294967295:1]=0` (see C47). -/
theorem C68_violated :
    (do let (s, _) ← sRun [.arrive 0x0800 ping1.bytes]; return s.held.length) = Res.ub ∧
    (∀ (x : V6) (f : FragHdr) (rest : List UInt8), x.WF → x.nxt = 44 → x.payload = f.bytes ++ rest → f.offset = 0 → f.reserved = 0 → IsExt f.nxt → sRun [.arrive 0x86dd x.bytes] = .hang) ∧
    (do let (s, _) ← sRun [sConn "action:set\nname:a\ntarget:lb1\nprotocols:tcp\nmatch:tcp[4294967295:1]=0\neoc:\n"]; return s.held.length) = Res.ok 0 ∧
    (do let (s, _) ← sRun [sConn "action:set\nname:a\ntarget:lb1\nprotocols:tcp\nmatch:tcp[4294967295:1]=0\neoc:\n", .arrive 0x0800 tcpX.bytes]; return s.held.length) = Res.ub := by
  refine ⟨by decide +kernel, ?_, by decide +kernel, by decide +kernel⟩
  intro x f rest hx hn hp hf hr he
  have h := (C13_violated 0 x f rest hx hn hp hf hr he).1
  have e : FlowLb.pktBegin fConf (FlowLb.start false) 0x86dd x.bytes = .hang := by
    unfold FlowLb.pktBegin
    rw [h]; rfl
  have e2 : sRun [.arrive 0x86dd x.bytes] = (Server.packet isort fisort fConf ⟨Server.start false, []⟩ (.arrive 0x86dd x.bytes) >>= fun r => Server.run isort fisort fConf r.1 [] >>= fun q => Res.ok (q.1, r.2 :: q.2)) := rfl
  have e3 : Server.packet isort fisort fConf ⟨Server.start false, []⟩ (.arrive 0x86dd x.bytes) = .hang := by
    unfold Server.packet
    simp only [FlowLb.step]
    rw [show (Server.start false).st = FlowLb.start false from rfl, e]
    rfl
  rw [e2, e3]
  rfl

/-! ### C69 -/

/-- C69: for a selection that is a comma separated list of names, the mask has the bit of an event exactly if the name of the event is in the list; there are no other bits. Names that are not known have no effect. -/
theorem C69_selection (names : List (List Char)) (h : ∀ n ∈ names, n ≠ [] ∧ ',' ∉ n) :
    ∃ mask, Trace.cmdTrace none (some (List.intercalate [','] names)) = .ok mask ∧ ∀ b, mask.testBit b = true ↔ ∃ n, eventNames[b]? = some n ∧ n ∈ names := by
  refine ⟨_, rfl, ?_⟩
  intro b
  rw [Trace.selection_spec names h b]

/-- What an event writes is written if it is selected, and else not. -/
theorem C69_line (names : List (List Char)) (h : ∀ n ∈ names, n ≠ [] ∧ ',' ∉ n) (mask : Nat) (hm : Trace.cmdTrace none (some (List.intercalate [','] names)) = .ok mask) (set : Flow.FlowSet) (nm : Nat → Option (List Char)) (b : Nat)
    (n : List Char) (hb : eventNames[b]? = some n) (text : List Char) : Trace.Tr.line ⟨mask, set, nm⟩ b text = if n ∈ names then text else [] := by
  obtain ⟨m, e, hs⟩ := C69_selection names h
  rw [e] at hm
  cases hm
  unfold Trace.Tr.line Trace.Tr.on
  by_cases hn : n ∈ names
  · rw [if_pos hn, if_pos ((hs b).2 ⟨n, hb, hn⟩)]
  · rw [if_neg hn, if_neg]
    intro h1
    obtain ⟨n', h2, h3⟩ := (hs b).1 h1
    rw [hb] at h2
    cases h2
    exact hn h3

/-- There must be exactly one of `--mask` and `--selection`. -/
theorem C69_one (m s : Option (List Char)) : Trace.cmdTrace m s = .die ↔ (m.isSome ↔ s.isSome) := by
  cases m <;> cases s <;> simp [Trace.cmdTrace]

example : Trace.cmdTrace none (some "flows,log,nosuch,sctp,flows".toList) = .ok 81 ∧ Trace.cmdTrace none (some ",,target,".toList) = .ok 32 ∧ Trace.cmdTrace (some "0x42".toList) none = .ok 66 ∧
    Trace.cmdTrace none none = .die ∧ (∀ n ∈ ["flows".toList, "nosuch".toList, "sctp".toList], n ≠ [] ∧ ',' ∉ n) := by decide +kernel

end Nfqlb.Props
