import Verif.Proof.Server

/-! The control server never stops, as long as the requests are benign. -/

set_option autoImplicit false

namespace Nfqlb.Server

open Nfqlb Nfqlb.Remote Nfqlb.Spec Nfqlb.Spec.Srv Nfqlb.Spec.Rem Nfqlb.Spec.FLB Nfqlb.Spec.RS Nfqlb.Spec.FL
open Nfqlb.Flow (Draw SetOK define_cases delete_spec After build_fields built_draw print_total From step_from)

/-- What holds of the server in every history. -/
structure SInv (s : Sys) : Prop where
  inv : FlowLb.Inv ⟨s.srv.st, s.held⟩
  draw : ∀ f ∈ s.srv.st.fset.flows, Draw f ∧ Flow.Mild f.priority
  tset : SetOK s.srv.trace
  tdraw : ∀ f ∈ s.srv.trace.flows, Draw f ∧ Flow.Mild f.priority
  tname : ∀ f ∈ s.srv.trace.flows, f.userRef ≠ 0 ∧ s.srv.names f.userRef = some f.name
  tref : s.srv.trace.flows.Pairwise (fun f g => f.userRef ≠ g.userRef)
  fresh : 1 ≤ s.srv.nextName ∧ ∀ p, s.srv.nextName ≤ p → s.srv.names p = none

/-- The flows after `cmd_set`. -/
theorem cmdSet_flows {rq : (Nat → Nat) → List Nat → List Nat} (hq : QSort rq) {fq : List Flow.Flow → List Flow.Flow} (hfq : Sorts fq) {s : FlowLb.Sys} (hi : FlowLb.Inv s) {env : FlowLb.Env} {c : FlowLb.Cmd} (hc : Named c)
    {st : FlowLb.St} {r : FlowLb.Reply} (h : FlowLb.cmdSet rq fq env s.st c = .ok (st, r)) :
    ∀ f ∈ st.fset.flows, f ∈ s.st.fset.flows ∨ (∃ lb, From rq f (FlowLb.flowArgs c lb)) ∨ ∃ n, From rq f (FlowLb.udpArgs c n) := by
  obtain ⟨n, t, hn, ht, hh, hl, hu⟩ := hc
  obtain ⟨st1, r1, e1, hfs, _, _⟩ := FlowLb.setLb_spec hi env hn ht hh
  unfold FlowLb.cmdSet at h
  rw [e1] at h
  simp only [Res.ok_bind, Res.pure_eq] at h
  have hset : SetOK st1.fset := by rw [hfs]; exact hi.flowset
  cases r1 with
  | inl rep =>
    cases h
    rw [hfs]
    exact fun f hf => .inl hf
  | inr lb =>
    dsimp only at h
    obtain ⟨⟨st2, r2⟩, e2, h⟩ := bind_ok h
    have h2 : SetOK st2.fset ∧ ∀ f ∈ st2.fset.flows, f ∈ s.st.fset.flows ∨ ∃ n, From rq f (FlowLb.udpArgs c n) := by
      unfold FlowLb.setUdp at e2
      split at e2
      · cases e2
        exact ⟨hset, fun f hf => .inl (by rw [← hfs]; exact hf)⟩
      split at e2
      · cases e2
        exact ⟨hset, fun f hf => .inl (by rw [← hfs]; exact hf)⟩
      · obtain ⟨u, _, e2⟩ := bind_ok e2
        obtain ⟨⟨fs, ok⟩, e3, e2⟩ := bind_ok e2
        cases e2
        have hst : Flow.step rq fq st1.fset (.define (FlowLb.udpArgs c u)) = .ok fs := by simp only [Flow.step, e3]; rfl
        refine ⟨Flow.step_ok hq hfq hset hst, fun f hf => ?_⟩
        rcases step_from hq hfq hset hst f hf with h | ⟨a, ha, h⟩
        · exact .inl (by rw [← hfs]; exact h)
        · cases ha
          exact .inr ⟨u, h⟩
    cases r2 with
    | some rep =>
      cases h
      intro f hf
      rcases h2.2 f hf with h | h
      · exact .inl h
      · exact .inr (.inr h)
    | none =>
      dsimp only at h
      unfold FlowLb.setFlow at h
      obtain ⟨⟨fs, ok⟩, e3, h⟩ := bind_ok h
      cases h
      have hst : Flow.step rq fq st2.fset (.define (FlowLb.flowArgs c lb)) = .ok fs := by simp only [Flow.step, e3]; rfl
      intro f hf
      rcases step_from hq hfq h2.1 hst f hf with h | ⟨a, ha, h⟩
      · rcases h2.2 f h with h | h
        · exact .inl h
        · exact .inr (.inr h)
      · cases ha
        exact .inr (.inl ⟨lb, h⟩)

theorem udp_digits {n : Nat} (h : n < 65536) : (Nat.toDigits 10 n).length < 1023 := by
  have := digits_length n (by omega)
  omega

theorem cmdSet_draw {rq : (Nat → Nat) → List Nat → List Nat} (hq : QSort rq) {fq : List Flow.Flow → List Flow.Flow} (hfq : Sorts fq) {s : FlowLb.Sys} (hi : FlowLb.Inv s) (hd : ∀ f ∈ s.st.fset.flows, Draw f ∧ Flow.Mild f.priority)
    {env : FlowLb.Env} {c : FlowCmd} (hs : Small c) (hm : Srv.Mild c) (hc : Named c.toCmd)
    {st : FlowLb.St} {r : FlowLb.Reply} (h : FlowLb.cmdSet rq fq env s.st c.toCmd = .ok (st, r)) : ∀ f ∈ st.fset.flows, Draw f ∧ Flow.Mild f.priority := by
  intro f hf
  have hu : c.udpencap < 65536 := by obtain ⟨_, _, _, _, _, _, h⟩ := hc; exact h
  rcases cmdSet_flows hq hfq hi hc h f hf with h | ⟨lb, h⟩ | ⟨n, h⟩
  · exact hd f h
  · refine ⟨built_draw hq h.built ?_ ?_, by rw [h.priority]; exact hm.2.2⟩
    · intro s e
      have e : c.dports = some s := e
      have := hs.1 s (by simp [texts, e])
      omega
    · intro s e
      have e : c.sports = some s := e
      have := hs.1 s (by simp [texts, e])
      omega
  · refine ⟨built_draw hq h.built ?_ ?_, by rw [h.priority]; exact hm.2.2⟩
    · intro s e
      cases e
      exact udp_digits hu
    · intro s e; cases e

/-- `trace-set` keeps the trace flows in order. -/
theorem traceSet_ok {rq : (Nat → Nat) → List Nat → List Nat} (hq : QSort rq) {fq : List Flow.Flow → List Flow.Flow} (hfq : Sorts fq) {s : Srv} {held : List (Nat × Parsed)} (hi : SInv ⟨s, held⟩) {c : FlowCmd} (hs : Small c)
    (hn : c.name ≠ none) (hm : Srv.Mild c) : ∃ s' o, traceSet rq fq s c = .ok (s', o) ∧ SInv ⟨s', held⟩ := by
  cases hname : c.name with
  | none => exact absurd hname hn
  | some name =>
    unfold traceSet
    rw [hname]
    dsimp only
    have hfr : ∀ p, p ≠ s.nextName → setName s.names s.nextName (some name) p = s.names p := fun p hp => by simp [setName, hp]
    have hlt : ∀ f ∈ s.trace.flows, f.userRef ≠ s.nextName := by
      intro f hf e
      have h1 := (hi.tname f hf).2
      have h2 := hi.fresh.2 f.userRef (Nat.le_of_eq e.symm)
      rw [h2] at h1; cases h1
    have hfresh : 1 ≤ s.nextName + 1 ∧ ∀ p, s.nextName + 1 ≤ p → setName s.names s.nextName (some name) p = none := by
      refine ⟨by omega, fun p hp => ?_⟩
      rw [hfr p (by omega)]
      exact hi.fresh.2 p (by show s.nextName ≤ p; omega)
    rcases define_cases hq hfq hi.tset (traceArgs c s.nextName) with e | ⟨t', f, n, e, h1, h2, _, h3, h4, h5, h6, h7, h8⟩ | ⟨_, hno⟩
    · rw [show Flow.flowDefine rq fq s.trace (traceArgs c s.nextName) = _ from e]
      refine ⟨_, _, rfl, hi.inv, hi.draw, hi.tset, hi.tdraw, ?_, hi.tref, hfresh⟩
      intro f hf
      refine ⟨(hi.tname f hf).1, ?_⟩
      show setName s.names s.nextName (some name) f.userRef = _
      rw [hfr _ (hlt f hf)]
      exact (hi.tname f hf).2
    · rw [show Flow.flowDefine rq fq s.trace (traceArgs c s.nextName) = _ from e]
      have hnn : n = name := by
        have : c.name = some n := h1
        rw [hname] at this; cases this; rfl
      subst hnn
      refine ⟨_, _, rfl, hi.inv, hi.draw, h8, ?_, ?_, ?_, hfresh⟩
      · intro g hg
        have hg := FlowLb.mem_after h7 hg
        rcases hg with rfl | ⟨hg, _⟩
        · refine ⟨built_draw hq (build_fields h2) ?_ ?_, by rw [h4]; exact hm.2.2⟩
          · intro x ex
            have ex : c.dports = some x := ex
            have := hs.1 x (by simp [texts, ex])
            omega
          · intro x ex
            have ex : c.sports = some x := ex
            have := hs.1 x (by simp [texts, ex])
            omega
        · exact hi.tdraw g hg
      · intro g hg
        rcases FlowLb.mem_after h7 hg with rfl | ⟨hg, _⟩
        · have hu : g.userRef = s.nextName := h5
          rw [hu, h3]
          have := hi.fresh.1
          refine ⟨by show s.nextName ≠ 0; have : 1 ≤ s.nextName := hi.fresh.1; omega, ?_⟩
          simp [setName]
        · refine ⟨(hi.tname g hg).1, ?_⟩
          show setName s.names s.nextName (some n) g.userRef = _
          rw [hfr _ (hlt g hg)]
          exact (hi.tname g hg).2
      · refine h7.2.symm.pairwise ?_ (fun h => Ne.symm h)
        rw [List.pairwise_cons]
        refine ⟨fun g hg => ?_, hi.tref.sublist List.filter_sublist⟩
        have hu : f.userRef = s.nextName := h5
        rw [hu]
        exact (hlt g (List.mem_filter.1 hg).1).symm
    · exact absurd ⟨hm.1, hm.2.1, hm.2.2, fun f hf => (hi.tdraw f hf).2⟩ hno

/-- `trace-delete` keeps the trace flows in order. -/
theorem traceDelete_ok {s : Srv} {held : List (Nat × Parsed)} (hi : SInv ⟨s, held⟩) (c : FlowCmd) : ∃ s' o, traceDelete s c = .ok (s', o) ∧ SInv ⟨s', held⟩ := by
  unfold traceDelete
  cases c.name with
  | none => exact ⟨_, _, rfl, hi⟩
  | some name =>
    dsimp only
    rcases delete_spec hi.tset name with ⟨e, _⟩ | ⟨f, h1, h2, e, h3⟩
    · rw [show Flow.flowDelete s.trace name = _ from e]
      simp only [Res.ok_bind, freeName, if_pos]
      exact ⟨_, _, rfl, hi⟩
    · rw [show Flow.flowDelete s.trace name = _ from e]
      simp only [Res.ok_bind, freeName]
      have hf := hi.tname f h1
      have hf2 : s.names f.userRef = some f.name := hf.2
      rw [if_neg hf.1, hf2]
      refine ⟨_, _, rfl, hi.inv, hi.draw, h3, fun g hg => hi.tdraw g (List.mem_filter.1 hg).1, ?_, hi.tref.sublist List.filter_sublist, hi.fresh.1, ?_⟩
      · intro g hg
        have hg' : g ∈ s.trace.flows := (List.mem_filter.1 hg).1
        have hne : g ≠ f := by
          rintro rfl
          have := (List.mem_filter.1 hg).2
          simp [h2] at this
        have hr : g.userRef ≠ f.userRef := by
          intro hx
          have := hi.tref
          rw [List.pairwise_iff_forall_sublist] at this
          rcases List.pairwise_iff_getElem.1 hi.tref with hp
          obtain ⟨i, hil, hie⟩ := List.mem_iff_getElem.1 hg'
          obtain ⟨j, hjl, hje⟩ := List.mem_iff_getElem.1 h1
          rcases Nat.lt_trichotomy i j with hij | hij | hij
          · exact hp i j hil hjl hij (by rw [hie, hje]; exact hx)
          · subst hij; exact hne (hie.symm.trans hje)
          · exact hp j i hjl hil hij (by rw [hie, hje]; exact hx.symm)
        refine ⟨(hi.tname g hg').1, ?_⟩
        show setName s.names f.userRef none g.userRef = _
        simp only [setName, if_neg hr]
        exact (hi.tname g hg').2
      · intro p hp
        show setName s.names f.userRef none p = none
        unfold setName
        split
        · rfl
        · exact hi.fresh.2 p hp

theorem trace_ok {rq : (Nat → Nat) → List Nat → List Nat} (hq : QSort rq) {fq : List Flow.Flow → List Flow.Flow} (hfq : Sorts fq) (cnt : Flow.Flow → Nat) {s : Srv} {held : List (Nat × Parsed)} (hi : SInv ⟨s, held⟩) {c : FlowCmd} (hs : Small c)
    {a : List Char} (hset : a = "trace-set".toList → c.name ≠ none ∧ Srv.Mild c) : ∃ s' o, traceHandle rq fq cnt s c a = .ok (s', o) ∧ SInv ⟨s', held⟩ := by
  unfold traceHandle
  split
  · rename_i h
    exact traceSet_ok hq hfq hi hs (hset h).1 (hset h).2
  split
  · exact traceDelete_ok hi c
  split
  · obtain ⟨t, e⟩ := print_total s.trace c.name cnt none (fun f hf => (hi.tdraw f hf).1) (by intro f _ r h; cases h)
    rw [e]
    exact ⟨_, _, rfl, hi⟩
  split
  · exact ⟨_, _, rfl, hi⟩
  · exact ⟨_, _, rfl, hi⟩

theorem lb2string_ok {st : FlowLb.St} {held : List (Nat × Parsed)} (hi : FlowLb.Inv ⟨st, held⟩) {f : Flow.Flow} (hf : f ∈ st.fset.flows) : ∃ t, lb2string st f.userRef = .ok t := by
  unfold lb2string
  by_cases h0 : f.userRef = 0
  · rw [if_pos h0]; exact ⟨_, rfl⟩
  · rw [if_neg h0]
    cases hh : st.heap f.userRef with
    | some l => exact ⟨_, rfl⟩
    | none =>
      have h1 := hi.bal.dead f.userRef h0 hh
      have h2 := FlowLb.flow_refs (s := ⟨st, held⟩) hf
      rw [h1] at h2
      exact absurd h2 (Nat.lt_irrefl 0)

/-- Every benign request is handled; the state stays in order if it is not refused after a load-balancer was taken. -/
theorem handle_ok {rq : (Nat → Nat) → List Nat → List Nat} (hq : QSort rq) {fq : List Flow.Flow → List Flow.Flow} (hfq : Sorts fq) (cnt : Flow.Flow → Nat) (env : FlowLb.Env) {s : Srv} {held : List (Nat × Parsed)} (hi : SInv ⟨s, held⟩)
    {c : FlowCmd} (hs : Small c) (h1 : c.action = some "set".toList → Named c.toCmd ∧ Srv.Mild c) (h2 : c.action = some "trace-set".toList → c.name ≠ none ∧ Srv.Mild c) :
    ∃ s' o, handle rq fq cnt env s c = .ok (s', o) ∧ ((o = .reply .sctp ∨ o = .reply .define → SameTarget s.st c.toCmd) → SInv ⟨s', held⟩) := by
  cases ha : c.action with
  | none =>
    refine ⟨s, .noAction, ?_, fun _ => hi⟩
    unfold handle
    rw [ha]
  | some a =>
    by_cases ht : a.take 6 = "trace-".toList
    · rw [handle_trace ha ht]
      obtain ⟨s', o, e, k⟩ := trace_ok hq hfq cnt hi hs (a := a) (fun h => h2 (by rw [ha, h]))
      exact ⟨s', o, e, fun _ => k⟩
    by_cases e1 : a = "set".toList
    · subst e1
      rw [handle_set ha]
      obtain ⟨hn, hm⟩ := h1 ha
      rcases FlowLb.cmdSet_cases hq hfq hi.inv env hn with ⟨_, hno⟩ | ⟨st, r, e, k⟩
      · exact absurd ⟨hm.1, hm.2.1, hm.2.2, fun f hf => (hi.draw f hf).2⟩ hno
      · unfold doSet
        rw [show FlowLb.cmdSet rq fq env s.st c.toCmd = _ from e]
        refine ⟨_, _, rfl, fun hx => ⟨k (fun hr => hx ?_), ?_, hi.tset, hi.tdraw, hi.tname, hi.tref, hi.fresh⟩⟩
        · rcases hr with rfl | rfl
          · exact .inl rfl
          · exact .inr rfl
        · exact cmdSet_draw hq hfq hi.inv hi.draw hs hm hn e
    by_cases e2 : a = "delete".toList
    · subst e2
      rw [handle_delete ha]
      obtain ⟨st, r, e, k, ksub⟩ := FlowLb.delete_inv hi.inv c.name
      unfold doDelete
      rw [show FlowLb.cmdDelete s.st c.name = _ from e]
      exact ⟨_, _, rfl, fun _ => ⟨k, fun f hf => hi.draw f (ksub f hf), hi.tset, hi.tdraw, hi.tname, hi.tref, hi.fresh⟩⟩
    by_cases e3 : a = "list".toList
    · subst e3
      rw [handle_list ha]
      obtain ⟨t, e⟩ := print_total s.st.fset c.name cnt (some (lb2string s.st)) (fun f hf => (hi.draw f hf).1) (by
        intro f hf r hr
        cases hr
        exact lb2string_ok hi.inv hf)
      rw [e]
      exact ⟨_, _, rfl, fun _ => hi⟩
    by_cases e4 : a = "list-names".toList
    · subst e4
      rw [handle_names ha]
      exact ⟨_, _, rfl, fun _ => hi⟩
    · rw [handle_other ha ht e1 e2 e3 e4]
      exact ⟨_, _, rfl, fun _ => hi⟩

theorem SInv.mem {s : Srv} {held : List (Nat × Parsed)} (h : SInv ⟨s, held⟩) (c : FlowCmd) (m : Mem) : SInv ⟨{ s with cmd := c, mem := m }, held⟩ := ⟨h.inv, h.draw, h.tset, h.tdraw, h.tname, h.tref, h.fresh⟩

theorem serve_ok {rq : (Nat → Nat) → List Nat → List Nat} (hq : QSort rq) {fq : List Flow.Flow → List Flow.Flow} (hfq : Sorts fq) {s : Srv} {held : List (Nat × Parsed)} (hi : SInv ⟨s, held⟩) (k : Conn) (hb : Benign k.bytes) :
    ∃ s' o, serve rq fq s k = (send k.gone o >>= fun o => .ok (s', o)) ∧ ((o = .reply .sctp ∨ o = .reply .define → ∃ c, request k.bytes = some c ∧ SameTarget s.st c.toCmd) → SInv ⟨s', held⟩) := by
  obtain ⟨c, m, e, hc⟩ := receive_ok s k.bytes
  unfold serve
  rw [e, Res.ok_bind]
  cases hr : request k.bytes with
  | none => exact ⟨{ s with cmd := c, mem := m }, .nothing, by unfold send; simp, fun _ => hi.mem c m⟩
  | some x =>
    obtain ⟨rfl, hs⟩ := hc x hr
    obtain ⟨s', o, e1, k1⟩ := handle_ok hq hfq k.cnt k.env (hi.mem c m) hs (hb c hr).1 (hb c hr).2
    refine ⟨s', o, ?_, fun h => k1 (fun ho => ?_)⟩
    · simp only [Option.isSome_some, Bool.true_eq_false, if_false]
      rw [e1]
      rfl
    · obtain ⟨c', h1, h2⟩ := h ho
      cases h1
      exact h2

theorem hist_sinv {rq : (Nat → Nat) → List Nat → List Nat} (hq : QSort rq) {fq : List Flow.Flow → List Flow.Flow} (hfq : Sorts fq) {conf : FlowLb.Conf} {s : Sys} (h : Srv.Hist rq fq conf s) : SInv s := by
  induction h with
  | start ping =>
    refine ⟨FlowLb.start_inv ping, ?_, ?_, ?_, ?_, ?_, ?_⟩
    · intro f hf; cases hf
    · constructor
      · intro f hf; cases hf
      · intro f hf; cases hf
      · exact .nil
      · exact .nil
    · intro f hf; cases hf
    · intro f hf; cases hf
    · exact .nil
    · exact ⟨Nat.le_refl _, fun _ _ => rfl⟩
  | conn k _ hb he hr ih =>
    obtain ⟨s1, o1, e, k1⟩ := serve_ok hq hfq ih k hb
    rw [he] at e
    obtain ⟨o2, e2, e⟩ := bind_ok e.symm
    cases e
    rw [send_ok e2] at hr
    exact k1 hr
  | arrive proto data _ hp he ih =>
    simp only [step, packet] at he
    obtain ⟨r, e, he⟩ := bind_ok he
    cases he
    obtain ⟨k1, k2⟩ := FlowLb.arrive_inv ih.inv hp e
    exact ⟨k1, by rw [show r.st.fset = _ from k2]; exact ih.draw, ih.tset, ih.tdraw, ih.tname, ih.tref, ih.fresh⟩
  | finish env i _ he ih =>
    simp only [step, packet] at he
    obtain ⟨r, e, he⟩ := bind_ok he
    cases he
    obtain ⟨k1, k2⟩ := FlowLb.finish_inv ih.inv e
    exact ⟨k1, by rw [show r.st.fset = _ from k2]; exact ih.draw, ih.tset, ih.tdraw, ih.tname, ih.tref, ih.fresh⟩

/-- No flow has a name that was deleted. -/
theorem delete_gone {s : FlowLb.Sys} (hi : FlowLb.Inv s) {n : List Char} {st : FlowLb.St} {r : FlowLb.Reply} (h : FlowLb.cmdDelete s.st (some n) = .ok (st, r)) : r = .ok ∧ ∀ f ∈ st.fset.flows, f.name ≠ n := by
  simp only [FlowLb.cmdDelete, Res.pure_eq] at h
  rcases delete_spec hi.flowset n with ⟨e, hno⟩ | ⟨f, hf, hfn, e, hok⟩
  · rw [e] at h
    simp only [Res.ok_bind] at h
    obtain ⟨st1, e1, h⟩ := bind_ok h
    cases h
    rw [FlowLb.release_fset e1]
    exact ⟨rfl, hno⟩
  · rw [e] at h
    simp only [Res.ok_bind] at h
    obtain ⟨st1, e1, h⟩ := bind_ok h
    have h1 : ∀ f ∈ st1.fset.flows, f.name ≠ n := by
      rw [FlowLb.release_fset e1]
      intro g hg
      simpa using (List.mem_filter.1 hg).2
    split at h
    · obtain ⟨u, _, h⟩ := bind_ok h
      obtain ⟨⟨fs, p, q⟩, e2, h⟩ := bind_ok h
      cases h
      refine ⟨rfl, fun g hg => ?_⟩
      have hs1 : SetOK st1.fset := by rw [FlowLb.release_fset e1]; exact hok
      rcases delete_spec hs1 u with ⟨e3, _⟩ | ⟨x, _, _, e3, _⟩
      · rw [e3] at e2; cases e2; exact h1 g hg
      · rw [e3] at e2; cases e2; exact h1 g (List.mem_filter.1 hg).1
    · cases h
      exact ⟨rfl, h1⟩

end Nfqlb.Server
