import Verif.Proof.Sock

/-! Property C95: clients reach the server that was started with their address, one server has an address at a time, and a load-balancer that ended can be started again. -/

set_option autoImplicit false

namespace Nfqlb.Props

open Nfqlb Nfqlb.Sock Nfqlb.Spec.Sk
open Nfqlb.Addr (Gai Str)
open Nfqlb.Spec.Adr (GaiOk Host hostPort glibc)

/-- C95. After any history, a client of the flow server reaches the running `nfqlb flowlb` that was started with the same NFQLB_FLOW_ADDRESS (or both without), unless the port is 0. -/
theorem C95_flow (net : Net) (hn : NetOk net) (gai : Gai) (es : List Ev) (s : Sys) (h : List (Ev × Out)) (hr : run net gai empty es = .ok (s, h)) (pid : Nat) (env : Option Str) (tr : Option Str)
    (he : .flowlb pid env tr ∈ alive h) (hz : ¬ ZeroPort gai (env.getD "unix:nfqlb".toList)) :
    ∃ s', step net gai s (.list env) = .ok (s', .served pid .flow) := by
  have hi := inv_alive hn hr
  obtain ⟨a, x, ha, hx, hp, hrl, hadr⟩ := hi.has _ he (.flow, flowText env) (by rw [wants_flowlb]; exact List.mem_cons_of_mem _ (List.mem_singleton.mpr rfl)) pid rfl
  have hza : portZero a = false := by
    cases hc : portZero a with
    | false => rfl
    | true => exact absurd ⟨a, ha, hc⟩ hz
  have hxa := hadr hza
  have hcn := connect_bound hn hi (t := flowText env) (x := x) (by rw [hxa]; exact ha) hx
  refine ⟨if x.adr.head? = some 1 then s else { s with linger := x.adr :: s.linger }, ?_⟩
  unfold step
  dsimp only
  rw [hcn]
  simp only [Res.ok_bind, Res.pure_eq, hp, hrl]

/-- C95. Also `nfqlb trace` reaches the running process, of `nfqlb lb` or `nfqlb flowlb`, whose trace server was started with the same address. -/
theorem C95_trace (net : Net) (hn : NetOk net) (gai : Gai) (es : List Ev) (s : Sys) (h : List (Ev × Out)) (hr : run net gai empty es = .ok (s, h)) (pid : Nat) (e : Ev) (t : Str) (he : e ∈ alive h) (hp : pidOf e = some pid)
    (ht : (.trace, t) ∈ wants e) (hz : ¬ ZeroPort gai t) :
    step net gai s (.trace (some t)) = .ok (s, .served pid .trace) ∧ (t = "unix:nfqlb-trace".toList → step net gai s (.trace none) = .ok (s, .served pid .trace)) := by
  have hi := inv_alive hn hr
  obtain ⟨a, x, ha, hx, hpx, hrl, hadr⟩ := hi.has _ he _ ht pid hp
  have hza : portZero a = false := by
    cases hc : portZero a with
    | false => rfl
    | true => exact absurd ⟨a, ha, hc⟩ hz
  have hcn := connect_bound hn hi (t := t) (x := x) (by rw [hadr hza]; exact ha) hx
  have key : ∀ opt, traceText opt = t → step net gai s (.trace opt) = .ok (s, .served pid .trace) := by
    intro opt ho
    unfold step
    dsimp only
    rw [ho, hcn]
    simp only [Res.ok_bind, Res.pure_eq, hpx, hrl]
  exact ⟨key _ rfl, fun e => key none (by rw [e]; rfl)⟩

/-- C95. A client with a unix socket is served only by a running process that listens there, and by the server that does: the process asked for the same address. If none does, the client ends. -/
theorem C95_only (net : Net) (hn : NetOk net) (gai : Gai) (es : List Ev) (s : Sys) (h : List (Ev × Out)) (hr : run net gai empty es = .ok (s, h)) (env : Option Str) (hu : UnixText (env.getD "unix:nfqlb".toList)) :
    (∃ s' pid role e t, step net gai s (.list env) = .ok (s', .served pid role) ∧ e ∈ alive h ∧ pidOf e = some pid ∧ (role, t) ∈ wants e ∧ address gai t = address gai (env.getD "unix:nfqlb".toList)) ∨
    (step net gai s (.list env) = .ok (s, .refused) ∧ ∀ e ∈ alive h, ∀ w ∈ wants e, address gai w.2 ≠ address gai (env.getD "unix:nfqlb".toList)) := by
  have hi := inv_alive hn hr
  obtain ⟨n, hn1, hn2⟩ := hu
  have ha : address gai (flowText env) = .ok ([1, 0, 0] ++ n.map (fun c => UInt8.ofNat c.toNat)) := by
    unfold flowText; rw [hn1, address_unix gai n hn2]
  cases hc : connect net gai s (flowText env) with
  | ok r =>
    cases r with
    | some x =>
      left
      obtain ⟨a, ha', _, hx, hreach⟩ := connect_some hc
      rw [ha] at ha'
      cases ha'
      have hxa := hn.unix _ _ rfl (hn.reachClash _ _ hreach)
      obtain ⟨e, he, hp, t, a', hw, hat, hh, hz⟩ := hi.src x hx
      refine ⟨if x.adr.head? = some 1 then s else { s with linger := x.adr :: s.linger }, x.pid, x.role, e, t, ?_, he, hp, hw, ?_⟩
      · unfold step
        dsimp only
        rw [hc]
        rfl
      · have h1 : a'.head? = some 1 := by rw [← hh, ← hxa]; rfl
        rw [hat]
        show _ = address gai (flowText env)
        rw [ha, hxa, hz (head_nz h1)]
    | none =>
      right
      refine ⟨?_, ?_⟩
      · unfold step
        dsimp only
        rw [hc]
        rfl
      · intro e he w hw heq
        obtain ⟨pid, tr, hk⟩ := hi.kind e he
        have hpid : pidOf e = some pid := by rcases hk with rfl | ⟨env, rfl⟩ <;> rfl
        obtain ⟨a, x, hax, hx, _, _, hadr⟩ := hi.has e he w hw pid hpid
        have heq' : address gai w.2 = address gai (flowText env) := heq
        rw [ha] at heq'
        rw [heq'] at hax
        cases hax
        have hxa := hadr (head_nz rfl)
        rw [connect_bound hn hi (t := flowText env) (x := x) (by rw [ha, hxa]) hx] at hc
        cases hc
  | die => unfold connect at hc; rw [ha] at hc; cases hc
  | ub => unfold connect at hc; rw [ha] at hc; cases hc
  | hang => unfold connect at hc; rw [ha] at hc; cases hc

/-- C95. The two default addresses do not get in each other's way: if nothing that runs asked for one of them, `nfqlb flowlb` without settings runs, whatever else runs. -/
theorem C95_default (net : Net) (hn : NetOk net) (gai : Gai) (es : List Ev) (s : Sys) (h : List (Ev × Out)) (hr : run net gai empty es = .ok (s, h)) (pid : Nat)
    (hf : ∀ e ∈ alive h, ∀ w ∈ wants e, address gai w.2 ≠ address gai "unix:nfqlb".toList ∧ address gai w.2 ≠ address gai "unix:nfqlb-trace".toList) :
    ∃ s', step net gai s (.flowlb pid none none) = .ok (s', .running) := by
  have hi := inv_alive hn hr
  have ha := address_unix gai "nfqlb-trace".toList (by decide)
  have hb := address_unix gai "nfqlb".toList (by decide)
  refine ⟨_, free_flowlb (tr := none) (env := none) ha (head_nz rfl) (unix_free hn hi rfl ?_) hb (head_nz rfl) (unix_free hn hi rfl ?_) ?_⟩
  · intro e he w hw he'
    exact (hf e he w hw).2 (by rw [he']; exact ha.symm)
  · intro e he w hw he'
    exact (hf e he w hw).1 (by rw [he']; exact hb.symm)
  · cases hc : net.clash ([1, 0, 0] ++ "nfqlb".toList.map (fun c => UInt8.ofNat c.toNat)) ([1, 0, 0] ++ "nfqlb-trace".toList.map (fun c => UInt8.ofNat c.toNat)) with
    | false => rfl
    | true => exact absurd (hn.unix _ _ rfl hc) (by decide)

/-- C95. A second process that asks for an address of a running one ends (also if one asks for it as trace server, the other as flow server), and the host is as before: nothing happens to the first. -/
theorem C95_second (net : Net) (hn : NetOk net) (gai : Gai) (es : List Ev) (s : Sys) (h : List (Ev × Out)) (hr : run net gai empty es = .ok (s, h)) (e e' : Ev) (he : e ∈ alive h) (r r' : Role) (t : Str) (hw : (r, t) ∈ wants e)
    (hw' : (r', t) ∈ wants e') (hz : ¬ ZeroPort gai t) (s' : Sys) (o : Out) (hs : step net gai s e' = .ok (s', o)) : o = .ended ∧ s' = s := by
  have hi := inv_alive hn hr
  obtain ⟨pid, tr, hk⟩ := hi.kind e he
  have hpid : pidOf e = some pid := by rcases hk with rfl | ⟨env, rfl⟩ <;> rfl
  obtain ⟨a, x, hax, hx, _, _, hadr⟩ := hi.has e he _ hw pid hpid
  have hza : portZero a = false := by
    cases hc : portZero a with
    | false => rfl
    | true => exact absurd ⟨a, hax, hc⟩ hz
  have hxa := hadr hza
  have hcl : net.clash a x.adr = true := by rw [hxa]; exact hn.self a hza
  have hin : x.adr ∈ s.inUse := List.mem_append_left _ (List.mem_map_of_mem hx)
  have dead : ∀ (s1 : Sys) (p : Nat) (ro : Role), x.adr ∈ s1.inUse → listenAt net gai s1 t p ro = .ok none := fun s1 p ro h1 => listen_taken hax hza h1 hcl p ro
  cases e' with
  | lb p tr =>
    rcases step_lb p tr hs with ⟨_, rfl, rfl⟩ | ⟨h1, rfl⟩
    · exact ⟨rfl, rfl⟩
    · have hl : listenAt net gai s (traceText tr) p .trace = _ := h1
      rw [wants_lb] at hw'
      cases List.mem_singleton.mp hw'
      rw [dead s p .trace hin] at hl
      cases hl
  | flowlb p env tr =>
    rcases step_flowlb p env tr hs with ⟨rfl, rfl, _⟩ | ⟨rfl, s1, h1, h2⟩
    · exact ⟨rfl, rfl⟩
    · have hl : listenAt net gai s (traceText tr) p .trace = _ := h1
      rw [wants_flowlb] at hw'
      rcases List.mem_cons.mp hw' with e | e
      · cases e
        rw [dead s p .trace hin] at hl
        cases hl
      · cases List.mem_singleton.mp e
        obtain ⟨_, b, _, hb, hlin, _⟩ := listen_some hn hl
        have : x.adr ∈ s1.inUse := by
          unfold Sys.inUse at hin ⊢
          rw [hb, hlin]
          exact List.mem_cons_of_mem _ hin
        rw [dead s1 p .flow this] at h2
        cases h2
  | stop p => exact absurd hw' List.not_mem_nil
  | list env => exact absurd hw' List.not_mem_nil
  | trace opt => exact absurd hw' List.not_mem_nil
  | forget => exact absurd hw' List.not_mem_nil

/-- C95 (partial: unix sockets). A running load-balancer whose addresses are unix sockets can be stopped and started again at once, whatever happened before and whatever else runs. -/
theorem C95_again_partial (net : Net) (hn : NetOk net) (gai : Gai) (es : List Ev) (s : Sys) (h : List (Ev × Out)) (hr : run net gai empty es = .ok (s, h)) (e : Ev) (he : e ∈ alive h) (pid pid' : Nat) (hp : pidOf e = some pid)
    (hu : ∀ w ∈ wants e, UnixText w.2) :
    ∃ s1 s2, step net gai s (.stop pid) = .ok (s1, .quiet) ∧ step net gai s1 (withPid pid' e) = .ok (s2, .running) := by
  have hi := inv_alive hn hr
  have hi' : Inv net gai _ (note (alive h) (.stop pid, .quiet)) := inv_step hn hi (e := .stop pid) (o := .quiet) rfl
  have adr : ∀ w ∈ wants e, ∃ a x, address gai w.2 = .ok a ∧ a.head? = some 1 ∧ x ∈ s.bound ∧ x.pid = pid ∧ x.role = w.1 ∧ x.adr = a := by
    intro w hw
    obtain ⟨n, h1, h2⟩ := hu w hw
    obtain ⟨a, x, hax, hx, hxp, hxr, hadr⟩ := hi.has e he w hw pid hp
    have ha := address_unix gai n h2
    rw [← h1, hax] at ha
    cases ha
    exact ⟨_, x, hax, rfl, hx, hxp, hxr, hadr (head_nz rfl)⟩
  have free : ∀ w ∈ wants e, ∀ a, address gai w.2 = .ok a → a.head? = some 1 → ∀ c ∈ Sys.inUse { s with bound := s.bound.filter (fun l => l.pid != pid) }, net.clash a c = false := by
    intro w hw a ha h1
    refine unix_free hn hi' h1 ?_
    intro e' he' w' hw' ha'
    obtain ⟨hm, hne⟩ := List.mem_filter.mp (show e' ∈ (alive h).filter (fun e => pidOf e != some pid) from he')
    obtain ⟨q, tr, hk⟩ := hi.kind e' hm
    have hq : pidOf e' = some q := by rcases hk with rfl | ⟨env, rfl⟩ <;> rfl
    obtain ⟨b, y, hb, hy, hyp, _, hyb⟩ := hi.has e' hm w' hw' q hq
    rw [ha'] at hb
    cases hb
    obtain ⟨b, x, hb, _, hx, hxp, _, hxb⟩ := adr w hw
    rw [ha] at hb
    cases hb
    have hza := head_nz h1
    have := pair_unique hn _ hi.sep x hx y hy (by rw [hxb, hyb hza]; exact hn.self _ hza)
    rw [this] at hxp
    rw [hq, ← hyp, hxp] at hne
    simp at hne
  refine ⟨{ s with bound := s.bound.filter (fun l => l.pid != pid) }, ?_⟩
  obtain ⟨q, tr, hk⟩ := hi.kind e he
  rcases hk with rfl | ⟨env, rfl⟩
  · have hm : (Role.trace, traceText tr) ∈ wants (.lb q tr) := by rw [wants_lb]; exact List.mem_singleton.mpr rfl
    obtain ⟨a, x, ha, h1, _⟩ := adr _ hm
    exact ⟨_, rfl, free_lb ha (head_nz h1) (free _ hm a ha h1)⟩
  · have hm : (Role.trace, traceText tr) ∈ wants (.flowlb q env tr) := by rw [wants_flowlb]; exact List.mem_cons_self
    have hm' : (Role.flow, flowText env) ∈ wants (.flowlb q env tr) := by rw [wants_flowlb]; exact List.mem_cons_of_mem _ (List.mem_singleton.mpr rfl)
    obtain ⟨a, x, ha, h1, hx, _, hxr, hxa⟩ := adr _ hm
    obtain ⟨b, y, hb, h2, hy, _, hyr, hyb⟩ := adr _ hm'
    refine ⟨_, rfl, free_flowlb ha (head_nz h1) (free _ hm a ha h1) hb (head_nz h2) (free _ hm' b hb h2) ?_⟩
    cases hc : net.clash b a with
    | false => rfl
    | true =>
      have := pair_unique hn _ hi.sep y hy x hx (by rw [hyb, hxa]; exact hc)
      rw [this, hxr] at hyr
      cases hyr

/-- C95 is violated for TCP: after `nfqlb flowlb` with a TCP address has answered a client that reads up to the end, and was stopped, it can not be started again; it runs when the kernel has forgotten the connection (SO_REUSEADDR
is not set). For every host and port. -/
theorem C95_violated (net : Net) (hn : NetOk net) (gai : Gai) (hg : GaiOk gai) (h : Host) (hw : h.WF) (p : Nat) (h0 : 0 < p) (hp : p ≤ 65535) (p1 p2 p3 : Nat) :
    ∃ s, run net gai empty [.flowlb p1 (some ("tcp:".toList ++ hostPort h p)) none, .list (some ("tcp:".toList ++ hostPort h p)), .stop p1, .flowlb p2 (some ("tcp:".toList ++ hostPort h p)) none, .forget,
        .flowlb p3 (some ("tcp:".toList ++ hostPort h p)) none] =
      .ok (s, [(.flowlb p1 (some ("tcp:".toList ++ hostPort h p)) none, .running), (.list (some ("tcp:".toList ++ hostPort h p)), .served p1 .flow), (.stop p1, .quiet),
        (.flowlb p2 (some ("tcp:".toList ++ hostPort h p)) none, .ended), (.forget, .quiet), (.flowlb p3 (some ("tcp:".toList ++ hostPort h p)) none, .running)]) := by
  have ha := address_unix gai "nfqlb-trace".toList (by decide)
  have hb := address_tcp gai hg h hw p hp
  generalize ht : "tcp:".toList ++ hostPort h p = t at *
  have hz : portZero (h.sock p).bytes = false := by rw [port_zero h p hp]; exact decide_eq_false (by omega)
  have hh : (h.sock p).bytes.head? ≠ some 1 := by cases h <;> simp [Host.sock, Addr.Sock.bytes]
  generalize (h.sock p).bytes = b at *
  generalize hag : ([1, 0, 0] ++ "nfqlb-trace".toList.map (fun c => UInt8.ofNat c.toNat) : Adr) = a at *
  have h1 : a.head? = some 1 := by rw [← hag]; rfl
  have hab : net.clash a b = false := by
    cases hc : net.clash a b with
    | false => rfl
    | true => exact absurd (hn.unix _ _ h1 hc ▸ h1) hh
  have hba : net.clash b a = false := by rw [hn.symm]; exact hab
  have e1 : ∀ q, step net gai empty (.flowlb q (some t) none) = .ok (⟨[⟨b, q, .flow⟩, ⟨a, q, .trace⟩], []⟩, .running) := fun q =>
    free_flowlb (s := empty) (tr := none) ha (head_nz h1) (fun c hc => absurd hc List.not_mem_nil) hb hz (fun c hc => absurd hc List.not_mem_nil) hba
  have e2 : step net gai ⟨[⟨b, p1, .flow⟩, ⟨a, p1, .trace⟩], []⟩ (.list (some t)) = .ok (⟨[⟨b, p1, .flow⟩, ⟨a, p1, .trace⟩], [b]⟩, .served p1 .flow) := by
    have hc : connect net gai ⟨[⟨b, p1, .flow⟩, ⟨a, p1, .trace⟩], []⟩ (flowText (some t)) = .ok (some ⟨b, p1, .flow⟩) := by
      unfold connect
      rw [show flowText (some t) = t from rfl, hb]
      dsimp only
      simp only [List.find?, hn.reachSelf b hz]
    unfold step
    dsimp only
    rw [hc]
    simp only [Res.ok_bind]
    rw [if_neg hh]
    rfl
  have e3 : step net gai ⟨[⟨b, p1, .flow⟩, ⟨a, p1, .trace⟩], [b]⟩ (.stop p1) = .ok (⟨[], [b]⟩, .quiet) := by
    unfold step
    simp
  have e4 : step net gai ⟨[], [b]⟩ (.flowlb p2 (some t) none) = .ok (⟨[], [b]⟩, .ended) := by
    have g1 : startTrace net gai ⟨[], [b]⟩ p2 none = .ok (some ⟨[⟨a, p2, .trace⟩], [b]⟩) := by
      exact listen_free ha (head_nz h1) (fun c hc => by rw [List.mem_singleton.mp (show c ∈ [b] from hc)]; exact hab) p2 .trace
    have g2 : listenAt net gai ⟨[⟨a, p2, .trace⟩], [b]⟩ (flowText (some t)) p2 .flow = .ok none :=
      listen_taken (c := b) hb hz (List.mem_cons_of_mem _ (List.mem_singleton.mpr rfl)) (hn.self b hz) p2 .flow
    unfold step
    dsimp only
    rw [g1]
    simp only [Res.ok_bind]
    rw [g2]
    rfl
  have e5 : step net gai ⟨[], [b]⟩ .forget = .ok (empty, .quiet) := rfl
  refine ⟨⟨[⟨b, p3, .flow⟩, ⟨a, p3, .trace⟩], []⟩, ?_⟩
  simp only [run, e1, e2, e3, e4, e5, Res.ok_bind, Res.pure_eq]

/-- C95 is violated for port 0: whatever runs, no client reaches a server with that address. -/
theorem C95_violated_port0 (net : Net) (hn : NetOk net) (gai : Gai) (s : Sys) (env : Option Str) (hz : ZeroPort gai (env.getD "unix:nfqlb".toList)) : step net gai s (.list env) = .ok (s, .refused) := by
  obtain ⟨a, ha, hz⟩ := hz
  have hc : connect net gai s (flowText env) = .ok none := by
    unfold connect
    rw [show address gai (flowText env) = .ok a from ha]
    dsimp only
    rw [List.find?_eq_none.mpr]
    intro x _
    rw [hn.zero a _ hz]
    decide
  unfold step
  dsimp only
  rw [hc]
  rfl

/-! ### The hypotheses can be met -/

example : NetOk plain := plain_ok

set_option maxRecDepth 100000 in
/-- `nfqlb flowlb` with a TCP address and `nfqlb lb` with a trace address of its own, and a third one that ends. -/
example : ∃ s, run plain glibc empty [.flowlb 1 (some "tcp:127.0.0.1:9000".toList) none, .lb 2 (some "unix:other".toList), .lb 3 none] =
    .ok (s, [(.flowlb 1 (some "tcp:127.0.0.1:9000".toList) none, .running), (.lb 2 (some "unix:other".toList), .running), (.lb 3 none, .ended)]) := ⟨_, rfl⟩

set_option maxRecDepth 100000 in
/-- With port 0 the server runs, and clients with the same environment do not reach it. -/
example : ∃ s, run plain glibc empty [.flowlb 1 (some "tcp:127.0.0.1:0".toList) none, .list (some "tcp:127.0.0.1:0".toList)] =
    .ok (s, [(.flowlb 1 (some "tcp:127.0.0.1:0".toList) none, .running), (.list (some "tcp:127.0.0.1:0".toList), .refused)]) := ⟨_, rfl⟩

set_option maxRecDepth 100000 in
/-- `C95_flow` for a history with a process that ended and one that was stopped. -/
example : ∃ s s', run plain glibc empty [.lb 1 none, .flowlb 2 none none, .stop 1, .flowlb 3 none none] =
      .ok (s, [(.lb 1 none, .running), (.flowlb 2 none none, .ended), (.stop 1, .quiet), (.flowlb 3 none none, .running)]) ∧ step plain glibc s (.list none) = .ok (s', .served 3 .flow) := by
  have hr : ∃ s, run plain glibc empty [.lb 1 none, .flowlb 2 none none, .stop 1, .flowlb 3 none none] =
      .ok (s, [(.lb 1 none, .running), (.flowlb 2 none none, .ended), (.stop 1, .quiet), (.flowlb 3 none none, .running)]) := ⟨_, rfl⟩
  obtain ⟨s, hr⟩ := hr
  obtain ⟨s', hs⟩ := C95_flow plain plain_ok glibc _ _ _ hr 3 none none (by decide) (by
    rintro ⟨a, ha, hz⟩
    have := address_unix glibc "nfqlb".toList (by decide)
    rw [show (none : Option Str).getD "unix:nfqlb".toList = "unix:".toList ++ "nfqlb".toList from rfl, this] at ha
    cases ha
    rw [head_nz rfl] at hz
    cases hz)
  exact ⟨s, s', hr, hs⟩

/-- A process that runs after a history with a stop. -/
example : alive [(.flowlb 1 none none, .running), (.stop 1, .quiet), (.lb 2 none, .running), (.flowlb 3 none none, .ended)] = [.lb 2 none] := by decide

example : UnixText "unix:nfqlb".toList := ⟨"nfqlb".toList, rfl, by decide⟩

set_option maxRecDepth 100000 in
example : ZeroPort glibc "tcp:127.0.0.1:0".toList := ⟨_, rfl, by decide⟩

end Nfqlb.Props
