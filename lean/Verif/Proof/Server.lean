import Verif.Proof.PrintTotal
import Verif.Proof.RemoteMem
import Verif.Proof.FlowLbSet
import Verif.Spec.Server

/-! The control server. -/

set_option autoImplicit false

namespace Nfqlb.Server

open Nfqlb Nfqlb.Remote Nfqlb.Spec Nfqlb.Spec.Srv Nfqlb.Spec.Rem Nfqlb.Spec.FLB Nfqlb.Spec.RS Nfqlb.Spec.FL

/-! ### Requests -/

theorem read_any (bytes : List Char) (m : Mem) : ∃ r, readFlowCmd bytes m = .ok r ∧ Ends m.live m.peak bytes r := readLoop_ends bytes.length bytes FlowCmd.zero m (Nat.le_refl _) (good_zero m)

theorem request_of {bytes : List Char} {m : Mem} {r : Read} (h : readFlowCmd bytes m = .ok r) : request bytes = if r.rc = 0 then some r.cmd else none := by
  obtain ⟨r0, e, _⟩ := read_any bytes ⟨0, 0⟩
  obtain ⟨h1, h2, _⟩ := read_same bytes h e
  unfold request
  rw [e]
  dsimp only
  rw [h1, h2]

/-- The memory after a connection. -/
theorem receive_mem (s : Srv) (bytes : List Char) {base : Nat} (h1 : s.mem.live = base + blocks s.cmd) (h2 : s.mem.peak ≤ base + 9) :
    ∃ c m ok, receive s bytes = .ok ({ s with cmd := c, mem := m }, ok) ∧ m.live = base + blocks c ∧ m.peak ≤ base + 9 ∧ (ok = true → request bytes = some c) ∧ (ok = false → request bytes = none) := by
  have hf : (freeFlowCmd s.cmd s.mem).2.live = base ∧ (freeFlowCmd s.cmd s.mem).2.peak = s.mem.peak := by
    have hf : ∀ (α : Type) (p : Option α) (m : Mem), (m.free p).live = m.live - p.isSome.toNat ∧ (m.free p).peak = m.peak := by
      intro α p m
      cases p <;> simp [Mem.free]
    rw [blocks_eq] at h1
    unfold freeFlowCmd
    simp only [(hf _ _ _).1, (hf _ _ _).2]
    exact ⟨by omega, trivial⟩
  obtain ⟨r, e, k⟩ := read_any bytes (freeFlowCmd s.cmd s.mem).2
  rw [hf.1, hf.2] at k
  refine ⟨r.cmd, r.mem, decide (r.rc = 0), ?_, ?_, ?_, ?_, ?_⟩
  · unfold receive
    rw [e]; rfl
  · rcases k.rc with h | h
    · exact (k.accepted h).1
    · rw [(k.refused h).1, (k.refused h).2]; rfl
  · have := k.peak
    omega
  · intro h
    rw [request_of e, if_pos (of_decide_eq_true h)]
  · intro h
    rw [request_of e, if_neg (of_decide_eq_false h)]

theorem receive_ok (s : Srv) (bytes : List Char) : ∃ c m, receive s bytes = .ok ({ s with cmd := c, mem := m }, (request bytes).isSome) ∧ ∀ x, request bytes = some x → c = x ∧ Small x := by
  obtain ⟨r, e, k⟩ := read_any bytes (freeFlowCmd s.cmd s.mem).2
  refine ⟨r.cmd, r.mem, ?_, ?_⟩
  · unfold receive
    rw [e, request_of e]
    by_cases h : r.rc = 0
    · rw [if_pos h]; simp [h]
    · rw [if_neg h]; simp [h]
  · intro x hx
    rw [request_of e] at hx
    split at hx
    · rename_i h
      cases hx
      exact ⟨rfl, (k.accepted h).2.1⟩
    · cases hx

/-- What `serve` does. -/
theorem serve_eq (rq : (Nat → Nat) → List Nat → List Nat) (fq : List Flow.Flow → List Flow.Flow) (s : Srv) (k : Conn) :
    ∃ c m, serve rq fq s k = (match request k.bytes with
      | none => .ok ({ s with cmd := c, mem := m }, .nothing)
      | some c => (handle rq fq k.cnt k.env { s with cmd := c, mem := m } c >>= fun x => send k.gone x.2 >>= fun o => .ok (x.1, o))) := by
  obtain ⟨c, m, e, h⟩ := receive_ok s k.bytes
  refine ⟨c, m, ?_⟩
  unfold serve
  rw [e]
  cases hr : request k.bytes with
  | none => rfl
  | some x =>
    obtain ⟨rfl, _⟩ := h x hr
    rfl

theorem send_ok {gone : Bool} {o o' : Out} (h : send gone o = .ok o') : o' = o := by
  unfold send at h
  split at h <;> cases h
  rfl

theorem bind_ok {α β : Type} {x : Res α} {f : α → Res β} {y : β} (h : (x >>= f) = .ok y) : ∃ a, x = .ok a ∧ f a = .ok y := by
  cases x with
  | ok a => exact ⟨a, rfl, h⟩
  | die => cases h
  | ub => cases h
  | hang => cases h

/-- A connection that was served. -/
theorem serve_cases {rq : (Nat → Nat) → List Nat → List Nat} {fq : List Flow.Flow → List Flow.Flow} {s s' : Srv} {k : Conn} {o : Out} (h : serve rq fq s k = .ok (s', o)) :
    ∃ c m, (request k.bytes = none ∧ s' = { s with cmd := c, mem := m } ∧ o = .nothing) ∨
      ∃ x, request k.bytes = some x ∧ handle rq fq k.cnt k.env { s with cmd := x, mem := m } x = .ok (s', o) := by
  obtain ⟨c, m, e⟩ := serve_eq rq fq s k
  rw [e] at h
  refine ⟨c, m, ?_⟩
  cases hr : request k.bytes with
  | none =>
    rw [hr] at h
    cases h
    exact .inl ⟨rfl, rfl, rfl⟩
  | some x =>
    rw [hr] at h
    obtain ⟨⟨s1, o1⟩, e1, h⟩ := bind_ok h
    obtain ⟨o2, e2, h⟩ := bind_ok h
    cases h
    rw [send_ok e2]
    exact .inr ⟨x, rfl, e1⟩

/-! ### The actions -/

theorem trace_take (a : List Char) (h : a = "set".toList ∨ a = "delete".toList ∨ a = "list".toList ∨ a = "list-names".toList) : a.take 6 ≠ "trace-".toList := by
  rcases h with rfl | rfl | rfl | rfl <;> decide

theorem handle_set {rq : (Nat → Nat) → List Nat → List Nat} {fq : List Flow.Flow → List Flow.Flow} {cnt : Flow.Flow → Nat} {env : FlowLb.Env} {s : Srv} {c : FlowCmd} (h : c.action = some "set".toList) :
    handle rq fq cnt env s c = doSet rq fq env s c := by
  unfold handle
  rw [h]
  dsimp only
  rw [if_neg (trace_take _ (.inl rfl)), if_pos rfl]

theorem handle_delete {rq : (Nat → Nat) → List Nat → List Nat} {fq : List Flow.Flow → List Flow.Flow} {cnt : Flow.Flow → Nat} {env : FlowLb.Env} {s : Srv} {c : FlowCmd} (h : c.action = some "delete".toList) :
    handle rq fq cnt env s c = doDelete s c := by
  unfold handle
  rw [h]
  dsimp only
  rw [if_neg (trace_take _ (.inr (.inl rfl))), if_neg (by decide), if_pos rfl]

theorem handle_list {rq : (Nat → Nat) → List Nat → List Nat} {fq : List Flow.Flow → List Flow.Flow} {cnt : Flow.Flow → Nat} {env : FlowLb.Env} {s : Srv} {c : FlowCmd} (h : c.action = some "list".toList) :
    handle rq fq cnt env s c = (Flow.flowSetPrint s.st.fset c.name cnt (some (lb2string s.st)) >>= fun t => .ok (s, .text t)) := by
  unfold handle
  rw [h]
  dsimp only
  rw [if_neg (trace_take _ (.inr (.inr (.inl rfl)))), if_neg (by decide), if_neg (by decide), if_pos rfl]
  rfl

theorem handle_names {rq : (Nat → Nat) → List Nat → List Nat} {fq : List Flow.Flow → List Flow.Flow} {cnt : Flow.Flow → Nat} {env : FlowLb.Env} {s : Srv} {c : FlowCmd} (h : c.action = some "list-names".toList) :
    handle rq fq cnt env s c = .ok (s, .text (Flow.flowSetPrintNames s.st.fset)) := by
  unfold handle
  rw [h]
  dsimp only
  rw [if_neg (trace_take _ (.inr (.inr (.inr rfl)))), if_neg (by decide), if_neg (by decide), if_neg (by decide), if_pos rfl]

theorem handle_trace {rq : (Nat → Nat) → List Nat → List Nat} {fq : List Flow.Flow → List Flow.Flow} {cnt : Flow.Flow → Nat} {env : FlowLb.Env} {s : Srv} {c : FlowCmd} {a : List Char} (h : c.action = some a) (ht : a.take 6 = "trace-".toList) :
    handle rq fq cnt env s c = traceHandle rq fq cnt s c a := by
  unfold handle
  rw [h]
  dsimp only
  rw [if_pos ht]

theorem handle_other {rq : (Nat → Nat) → List Nat → List Nat} {fq : List Flow.Flow → List Flow.Flow} {cnt : Flow.Flow → Nat} {env : FlowLb.Env} {s : Srv} {c : FlowCmd} {a : List Char} (h : c.action = some a) (ht : a.take 6 ≠ "trace-".toList)
    (h1 : a ≠ "set".toList) (h2 : a ≠ "delete".toList) (h3 : a ≠ "list".toList) (h4 : a ≠ "list-names".toList) : handle rq fq cnt env s c = .ok (s, .unknown) := by
  unfold handle
  rw [h]
  dsimp only
  rw [if_neg ht, if_neg h1, if_neg h2, if_neg h3, if_neg h4]

/-- Requests about trace flows do not touch the flows. -/
theorem trace_frame {rq : (Nat → Nat) → List Nat → List Nat} {fq : List Flow.Flow → List Flow.Flow} {cnt : Flow.Flow → Nat} {s s' : Srv} {c : FlowCmd} {a : List Char} {o : Out}
    (h : traceHandle rq fq cnt s c a = .ok (s', o)) : s'.st = s.st ∧ s'.cmd = s.cmd ∧ s'.mem = s.mem := by
  unfold traceHandle at h
  split at h
  · unfold traceSet at h
    split at h
    · cases h
    · obtain ⟨⟨t, ok⟩, _, h⟩ := bind_ok h
      cases h
      exact ⟨rfl, rfl, rfl⟩
  split at h
  · unfold traceDelete at h
    split at h
    · cases h; exact ⟨rfl, rfl, rfl⟩
    · obtain ⟨⟨t, p, u⟩, _, h⟩ := bind_ok h
      obtain ⟨s1, h1, h⟩ := bind_ok h
      cases h
      unfold freeName at h1
      split at h1
      · cases h1; exact ⟨rfl, rfl, rfl⟩
      · split at h1
        · cases h1
        · cases h1; exact ⟨rfl, rfl, rfl⟩
  split at h
  · obtain ⟨t, _, h⟩ := bind_ok h
    cases h; exact ⟨rfl, rfl, rfl⟩
  split at h
  · cases h; exact ⟨rfl, rfl, rfl⟩
  · cases h; exact ⟨rfl, rfl, rfl⟩

/-- The other requests do not touch the trace flows. -/
theorem plain_frame {rq : (Nat → Nat) → List Nat → List Nat} {fq : List Flow.Flow → List Flow.Flow} {cnt : Flow.Flow → Nat} {env : FlowLb.Env} {s s' : Srv} {c : FlowCmd} {o : Out}
    (h : handle rq fq cnt env s c = .ok (s', o)) (ht : ∀ a, c.action = some a → a.take 6 ≠ "trace-".toList) : s'.trace = s.trace ∧ s'.names = s.names ∧ s'.nextName = s.nextName ∧ s'.cmd = s.cmd ∧ s'.mem = s.mem := by
  unfold handle at h
  split at h
  · cases h; exact ⟨rfl, rfl, rfl, rfl, rfl⟩
  · rename_i a ha
    rw [if_neg (ht a ha)] at h
    split at h
    · unfold doSet at h
      obtain ⟨⟨st, r⟩, _, h⟩ := bind_ok h
      cases h; exact ⟨rfl, rfl, rfl, rfl, rfl⟩
    split at h
    · unfold doDelete at h
      obtain ⟨⟨st, r⟩, _, h⟩ := bind_ok h
      cases h; exact ⟨rfl, rfl, rfl, rfl, rfl⟩
    split at h
    · obtain ⟨t, _, h⟩ := bind_ok h
      cases h; exact ⟨rfl, rfl, rfl, rfl, rfl⟩
    split at h
    · cases h; exact ⟨rfl, rfl, rfl, rfl, rfl⟩
    · cases h; exact ⟨rfl, rfl, rfl, rfl, rfl⟩

/-- Requests that are neither `set` nor `delete` leave the flows. -/
theorem quiet_frame {rq : (Nat → Nat) → List Nat → List Nat} {fq : List Flow.Flow → List Flow.Flow} {cnt : Flow.Flow → Nat} {env : FlowLb.Env} {s s' : Srv} {c : FlowCmd} {o : Out}
    (h : handle rq fq cnt env s c = .ok (s', o)) (h1 : c.action ≠ some "set".toList) (h2 : c.action ≠ some "delete".toList) : s'.st = s.st ∧ s'.cmd = s.cmd ∧ s'.mem = s.mem ∧ ∀ r, o ≠ .reply r := by
  unfold handle at h
  split at h
  · cases h; exact ⟨rfl, rfl, rfl, by simp⟩
  · rename_i a ha
    split at h
    · obtain ⟨e1, e2, e3⟩ := trace_frame h
      refine ⟨e1, e2, e3, ?_⟩
      unfold traceHandle at h
      split at h
      · unfold traceSet at h
        split at h
        · cases h
        · obtain ⟨⟨t, ok⟩, _, h⟩ := bind_ok h
          cases h
          intro r
          split <;> simp
      split at h
      · unfold traceDelete at h
        split at h
        · cases h; simp
        · obtain ⟨⟨t, p, u⟩, _, h⟩ := bind_ok h
          obtain ⟨s1, h1, h⟩ := bind_ok h
          cases h; simp
      split at h
      · obtain ⟨t, _, h⟩ := bind_ok h
        cases h; simp
      split at h <;> cases h <;> simp
    split at h
    · rename_i he; exact absurd (by rw [ha, he]) h1
    split at h
    · rename_i he; exact absurd (by rw [ha, he]) h2
    split at h
    · obtain ⟨t, _, h⟩ := bind_ok h
      cases h; exact ⟨rfl, rfl, rfl, by simp⟩
    split at h
    · cases h; exact ⟨rfl, rfl, rfl, by simp⟩
    · cases h; exact ⟨rfl, rfl, rfl, by simp⟩

/-! ### The flows and the load-balancers -/

theorem run_one {rq : (Nat → Nat) → List Nat → List Nat} {fq : List Flow.Flow → List Flow.Flow} {conf : FlowLb.Conf} {s s' : FlowLb.Sys} {e : FlowLb.Ev} (h : FlowLb.step rq fq conf s e = .ok s') :
    FlowLb.run rq fq conf s [e] = .ok s' := by
  simp only [FlowLb.run, h, Res.ok_bind]

theorem run_append {rq : (Nat → Nat) → List Nat → List Nat} {fq : List Flow.Flow → List Flow.Flow} {conf : FlowLb.Conf} : ∀ (es : List FlowLb.Ev) {s s' : FlowLb.Sys} (fs : List FlowLb.Ev), FlowLb.run rq fq conf s es = .ok s' →
    FlowLb.run rq fq conf s (es ++ fs) = FlowLb.run rq fq conf s' fs
  | [], s, s', fs, h => by cases h; rfl
  | e :: es, s, s', fs, h => by
    simp only [FlowLb.run] at h
    obtain ⟨s1, e1, h⟩ := bind_ok h
    simp only [List.cons_append, FlowLb.run, e1, Res.ok_bind]
    exact run_append es fs h

theorem step_effect {rq : (Nat → Nat) → List Nat → List Nat} {fq : List Flow.Flow → List Flow.Flow} {conf : FlowLb.Conf} {s s' : Sys} {e : Ev} {o : Out} (h : step rq fq conf s e = .ok (s', o)) :
    FlowLb.run rq fq conf ⟨s.srv.st, s.held⟩ (effect e) = .ok ⟨s'.srv.st, s'.held⟩ := by
  have hp : ∀ f : FlowLb.Ev, packet rq fq conf s f = .ok (s', o) → FlowLb.run rq fq conf ⟨s.srv.st, s.held⟩ [f] = .ok ⟨s'.srv.st, s'.held⟩ := by
    intro f h
    unfold packet at h
    obtain ⟨r, e, h⟩ := bind_ok h
    cases h
    exact run_one e
  cases e with
  | conn k =>
    simp only [step] at h
    obtain ⟨⟨srv, o1⟩, e1, h⟩ := bind_ok h
    cases h
    obtain ⟨c, m, ⟨hr, e, _⟩ | ⟨x, hr, e⟩⟩ := serve_cases e1
    · simp only [effect, hr, e]
      rfl
    · simp only [effect, hr]
      by_cases h1 : x.action = some "set".toList
      · rw [if_pos h1]
        rw [handle_set h1] at e
        unfold doSet at e
        obtain ⟨⟨st, r⟩, e2, e⟩ := bind_ok e
        cases e
        refine run_one ?_
        simp only [FlowLb.step]
        rw [show FlowLb.cmdSet rq fq k.env s.srv.st x.toCmd = .ok (st, r) from e2]
        rfl
      rw [if_neg h1]
      by_cases h2 : x.action = some "delete".toList
      · rw [if_pos h2]
        rw [handle_delete h2] at e
        unfold doDelete at e
        obtain ⟨⟨st, r⟩, e2, e⟩ := bind_ok e
        cases e
        refine run_one ?_
        simp only [FlowLb.step]
        rw [show FlowLb.cmdDelete s.srv.st x.name = .ok (st, r) from e2]
        rfl
      rw [if_neg h2, (quiet_frame e h1 h2).1]
      rfl
  | arrive proto data => exact hp _ h
  | finish env i => exact hp _ h

theorem run_effect {rq : (Nat → Nat) → List Nat → List Nat} {fq : List Flow.Flow → List Flow.Flow} {conf : FlowLb.Conf} : ∀ (es : List Ev) {s s' : Sys} {os : List Out}, run rq fq conf s es = .ok (s', os) →
    FlowLb.run rq fq conf ⟨s.srv.st, s.held⟩ (es.flatMap effect) = .ok ⟨s'.srv.st, s'.held⟩ ∧ os.length = es.length
  | [], s, s', os, h => by cases h; exact ⟨rfl, rfl⟩
  | e :: es, s, s', os, h => by
    simp only [run] at h
    obtain ⟨⟨s1, o⟩, e1, h⟩ := bind_ok h
    obtain ⟨⟨s2, os2⟩, e2, h⟩ := bind_ok h
    cases h
    obtain ⟨k1, k2⟩ := run_effect es e2
    rw [List.flatMap_cons, run_append _ _ (step_effect e1)]
    exact ⟨k1, by simp [k2]⟩

/-! ### Memory -/

/-- The memory for requests. -/
def MemOK (s : Srv) : Prop := s.mem.live = blocks s.cmd ∧ s.mem.peak ≤ 9

theorem handle_frame {rq : (Nat → Nat) → List Nat → List Nat} {fq : List Flow.Flow → List Flow.Flow} {cnt : Flow.Flow → Nat} {env : FlowLb.Env} {s s' : Srv} {c : FlowCmd} {o : Out}
    (h : handle rq fq cnt env s c = .ok (s', o)) : s'.cmd = s.cmd ∧ s'.mem = s.mem := by
  by_cases ht : ∀ a, c.action = some a → a.take 6 ≠ "trace-".toList
  · obtain ⟨_, _, _, k⟩ := plain_frame h ht
    exact k
  · rw [Classical.not_forall] at ht
    obtain ⟨a, ha⟩ := ht
    rw [Classical.not_imp, Classical.not_not] at ha
    rw [handle_trace ha.1 ha.2] at h
    exact (trace_frame h).2

theorem serve_mem {rq : (Nat → Nat) → List Nat → List Nat} {fq : List Flow.Flow → List Flow.Flow} {s s' : Srv} {k : Conn} {o : Out} (hm : MemOK s) (h : serve rq fq s k = .ok (s', o)) : MemOK s' := by
  obtain ⟨c, m, ok, e, h1, h2, h3, h4⟩ := receive_mem s k.bytes (base := 0) (by rw [hm.1]; omega) (by rw [Nat.zero_add]; exact hm.2)
  unfold serve at h
  rw [e, Res.ok_bind] at h
  dsimp only at h
  split at h
  · cases h
    exact ⟨by simpa using h1, by simpa using h2⟩
  · obtain ⟨⟨s1, o1⟩, e1, h⟩ := bind_ok h
    obtain ⟨o2, e2, h⟩ := bind_ok h
    cases h
    obtain ⟨k1, k2⟩ := handle_frame e1
    exact ⟨by rw [k1, k2]; simpa using h1, by rw [k2]; simpa using h2⟩

theorem step_mem {rq : (Nat → Nat) → List Nat → List Nat} {fq : List Flow.Flow → List Flow.Flow} {conf : FlowLb.Conf} {s s' : Sys} {e : Ev} {o : Out} (hm : MemOK s.srv) (h : step rq fq conf s e = .ok (s', o)) : MemOK s'.srv := by
  have hp : ∀ f : FlowLb.Ev, packet rq fq conf s f = .ok (s', o) → MemOK s'.srv := by
    intro f h
    unfold packet at h
    obtain ⟨r, e, h⟩ := bind_ok h
    cases h
    exact hm
  cases e with
  | conn k =>
    simp only [step] at h
    obtain ⟨⟨srv, o1⟩, e1, h⟩ := bind_ok h
    cases h
    exact serve_mem hm e1
  | arrive proto data => exact hp _ h
  | finish env i => exact hp _ h

theorem run_mem {rq : (Nat → Nat) → List Nat → List Nat} {fq : List Flow.Flow → List Flow.Flow} {conf : FlowLb.Conf} : ∀ (es : List Ev) {s s' : Sys} {os : List Out}, MemOK s.srv → run rq fq conf s es = .ok (s', os) → MemOK s'.srv
  | [], s, s', os, hm, h => by cases h; exact hm
  | e :: es, s, s', os, hm, h => by
    simp only [run] at h
    obtain ⟨⟨s1, o⟩, e1, h⟩ := bind_ok h
    obtain ⟨⟨s2, os2⟩, e2, h⟩ := bind_ok h
    cases h
    exact run_mem es (step_mem hm e1) e2

end Nfqlb.Server
