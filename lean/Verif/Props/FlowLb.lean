import Verif.Proof.FlowLbPkt
import Verif.Props.Flow
import Verif.Props.Lb

/-! C42, C43, C45 and C50: `nfqlb flowlb`. -/

set_option autoImplicit false

namespace Nfqlb.Props

open Nfqlb Nfqlb.FlowLb Nfqlb.Flow Nfqlb.Spec Nfqlb.Spec.FL Nfqlb.Spec.FLB Nfqlb.Spec.RS Nfqlb.Maglev

/-! ### Examples -/

/-- Two shared memories: `lb1` with targets 5 and 7, `lb2` without. -/
def fEnv : Env where
  shm t := if t = "lb1".toList then some 1 else if t = "lb2".toList then some 2 else none
  mag i := if i = 1 then demoWith [0, 0, 2, 2, 2, 0, 0] [5, -1, 7] else demo

def fConf : Conf := ⟨0, 77, 78, none⟩

/-- UDP to port 0. -/
def udp0 : V4 := { tcp4 with proto := 17, payload := (L4.bytes ⟨(4, 0), (0, 0), [0, 8, 0, 0]⟩) }

/-- A request with the given protocols, destination networks and udpencap. -/
def fReq (name target : String) (priority : Int) (protocols dsts : List String) (udpencap : Nat) : FlowLb.Cmd where
  name := some name.toList
  target := some target.toList
  priority := priority
  protocols := if protocols = [] then none else some (protocols.map String.toList)
  dports := none
  sports := none
  dsts := if dsts = [] then none else some (dsts.map String.toList)
  srcs := none
  mtch := none
  udpencap := udpencap

/-- What is in a state: flows with their references, the list, the counters of the first load-balancers. -/
def fView (s : Sys) : List (String × Nat) × List Nat × List (Option Int) :=
  (s.st.fset.flows.map (fun f => (String.ofList f.name, f.userRef)), s.st.lblist, [1, 2].map (fun p => (s.st.heap p).map LB.refCounter))

def fRun (es : List Ev) : Res Sys := FlowLb.run isort fisort fConf ⟨start false, []⟩ es

/-! ### C43 -/

/-- C43 in every history of requests, packets that arrive and packets that are finished, in any order: the load-balancers that exist are those that some flow or some packet in progress refers to, and the
counters are the numbers of these references. Missing, see `C43_violated`: requests that are refused after a load-balancer was taken for them, requests with a name that begins with `#`, UDP packets to
port 0, packets between the steps of a request. -/
theorem C43_balance_partial (rq : (Nat → Nat) → List Nat → List Nat) (hq : QSort rq) (fq : List Flow.Flow → List Flow.Flow) (hfq : Sorts fq) (conf : Conf) (s : Sys) (h : Hist rq fq conf s) : Balanced s :=
  inv_balanced (hist_inv hq hfq h)

/-- A request that is executed has the flow refer to the load-balancer with the target of the request. -/
theorem C43_target_partial (rq : (Nat → Nat) → List Nat → List Nat) (hq : QSort rq) (fq : List Flow.Flow → List Flow.Flow) (hfq : Sorts fq) (conf : Conf) (s : Sys) (h : Hist rq fq conf s) (env : Env) (c : FlowLb.Cmd)
    (hc : Named c) (st : St) (hset : cmdSet rq fq env s.st c = .ok (st, .ok)) : SameTarget st c := by
  obtain ⟨f, hf, h1, _, _, _, _, ⟨l, h2, h3⟩, _⟩ := set_done hq hfq (hist_inv hq hfq h) hc hset
  exact ⟨f, hf, h1, l, h2, h3⟩

example : (do let s ← fRun [.set fEnv (fReq "a" "lb1" 0 ["tcp"] [] 0), .set fEnv (fReq "b" "lb1" 1 ["udp"] [] 0), .set fEnv (fReq "c" "lb2" 2 ["sctp"] [] 0), .arrive 0x0800 tcp4.bytes]; return (fView s, s.held.map Prod.fst)) =
    Res.ok (([("c", 2), ("b", 1), ("a", 1)], [2, 1], [some 3, some 1]), [1]) := by decide +kernel

example : (do let s ← fRun [.set fEnv (fReq "a" "lb1" 0 ["tcp"] [] 0), .arrive 0x0800 tcp4.bytes, .delete (some "a".toList)]; return (fView s, s.held.map Prod.fst)) =
    Res.ok (([], [1], [some 1, none]), [1]) := by decide +kernel

example : (do let s ← fRun [.set fEnv (fReq "a" "lb1" 0 ["tcp"] [] 0), .arrive 0x0800 tcp4.bytes, .set fEnv (fReq "a" "lb2" 0 ["tcp"] [] 0), .finish fEnv 0]; return (fView s, s.held.map Prod.fst)) =
    Res.ok (([("a", 2)], [2], [none, some 1]), []) := by decide +kernel

/-- A history with a request that makes a flow. -/
example : ∃ s, Hist isort fisort fConf s ∧ s.st.fset.flows.length = 2 ∧ QSort isort ∧ Sorts fisort := by
  have hc : Named (fReq "a" "lb1" 0 ["sctp"] [] 9899) := ⟨_, _, rfl, rfl, by decide, by decide, by decide⟩
  have he : (match cmdSet isort fisort fEnv (start false) (fReq "a" "lb1" 0 ["sctp"] [] 9899) with | .ok (st, r) => decide (r = .ok ∧ st.fset.flows.length = 2) | _ => false) = true := by decide +kernel
  cases h : cmdSet isort fisort fEnv (start false) (fReq "a" "lb1" 0 ["sctp"] [] 9899) with
  | ok x =>
    obtain ⟨st, r⟩ := x
    rw [h] at he
    replace he := of_decide_eq_true he
    refine ⟨_, Hist.set fEnv _ (Hist.start false) hc h ?_, he.2, isort_ok, fisort_ok⟩
    rw [he.1]
    rintro (h | h) <;> cases h
  | die => rw [h] at he; cases he
  | ub => rw [h] at he; cases he
  | hang => rw [h] at he; cases he

/-- C43 as stated is false (/repo/src/nfqlb/cmdFlowLb.c).
* A request for a new flow that is refused by `flowDefine` keeps the reference to the load-balancer (:639): nothing refers to it, and it is never freed.
* A request that changes the target of a flow and is refused by `flowDefine` has released the old load-balancer (:590): it is freed, and the flow still refers to it. The next packet uses freed memory.
* The same without any error, when a packet comes between the release and `flowDefine`.
* A UDP packet to port 0 is taken for encapsulated SCTP (:159: port 0 equals `udpencap` 0), and the reference of the first lookup is lost.
* The flow that `udpencap` adds for the flow `x` is called `#x`: it replaces a flow with a target of that name, and the reference is lost. -/
theorem C43_violated :
    (do let s ← fRun [.set fEnv (fReq "a" "lb1" 0 ["xtp"] [] 0)]; return fView s) = Res.ok ([], [1], [some 1, none]) ∧
    (do let s ← fRun [.set fEnv (fReq "a" "lb1" 0 ["tcp"] [] 0), .set fEnv (fReq "a" "lb2" 0 ["xtp"] [] 0)]; return fView s) = Res.ok ([("a", 1)], [2], [none, some 1]) ∧
    (fRun [.set fEnv (fReq "a" "lb1" 0 ["tcp"] [] 0), .set fEnv (fReq "a" "lb2" 0 ["xtp"] [] 0), .arrive 0x0800 tcp4.bytes]).isUb = true ∧
    (do let s ← fRun [.set fEnv (fReq "a" "lb1" 0 ["tcp"] [] 0)]
        let (st, _) ← setLb fEnv s.st (fReq "a" "lb2" 0 ["tcp"] [] 0)
        pktBegin fConf st 0x0800 tcp4.bytes).isUb = true ∧
    (do let s ← fRun [.set fEnv (fReq "a" "lb1" 0 ["udp"] [] 0), .arrive 0x0800 udp0.bytes]; return (fView s, s.held.length)) = Res.ok (([("a", 1)], [1], [some 3, none]), 1) ∧
    (do let s ← fRun [.set fEnv (fReq "#x" "lb1" 0 ["tcp"] [] 0), .set fEnv (fReq "x" "lb2" 0 ["sctp"] [] 9899)]; return fView s) = Res.ok ([("#x", 0), ("x", 2)], [2, 1], [some 1, some 1]) := by
  refine ⟨?_, ?_, ?_, ?_, ?_, ?_⟩ <;> decide +kernel

/-! ### C45 -/

/-- C45 for requests with name and target, the name of at most 1018 characters and not beginning with `#`: the request is executed or refused, nothing undefined happens. Networks with a colon have fewer
than 128 characters, priorities are between -2^30 and 2^30-1. Missing: the other requests, see `C45_violated`. -/
theorem C45_set_partial (rq : (Nat → Nat) → List Nat → List Nat) (hq : QSort rq) (fq : List Flow.Flow → List Flow.Flow) (hfq : Sorts fq) (conf : Conf) (s : Sys) (h : Hist rq fq conf s) (env : Env) (c : FlowLb.Cmd) (hc : Named c)
    (hd : ∀ m, c.dsts = some m → ∀ x ∈ m, ':' ∈ x → x.length < 128) (hs : ∀ m, c.srcs = some m → ∀ x ∈ m, ':' ∈ x → x.length < 128)
    (hp : -1073741824 ≤ c.priority ∧ c.priority ≤ 1073741823) (hf : ∀ f ∈ s.st.fset.flows, -1073741824 ≤ f.priority ∧ f.priority ≤ 1073741823) :
    ∃ st r, cmdSet rq fq env s.st c = .ok (st, r) := by
  rcases cmdSet_cases hq hfq (hist_inv hq hfq h) env hc with ⟨_, hno⟩ | ⟨st, r, e, _⟩
  · exact absurd ⟨hd, hs, hp, hf⟩ hno
  · exact ⟨st, r, e⟩

/-- C45 for every request to delete: with or without name, any name. -/
theorem C45_delete_partial (rq : (Nat → Nat) → List Nat → List Nat) (hq : QSort rq) (fq : List Flow.Flow → List Flow.Flow) (hfq : Sorts fq) (conf : Conf) (s : Sys) (h : Hist rq fq conf s) (name : Option (List Char)) :
    ∃ st r, cmdDelete s.st name = .ok (st, r) := by
  obtain ⟨st, r, e, _⟩ := delete_inv (hist_inv hq hfq h) name
  exact ⟨st, r, e⟩

example : (do
    let s ← fRun [.set fEnv (fReq "a" "lb1" 0 ["tcp"] [] 0), .set fEnv (fReq "b" "lb1" 0 ["sctp"] ["10.0.0.0/8"] 9899)]
    let (_, r1) ← cmdSet isort fisort fEnv s.st (fReq "a" "lb3" 0 ["tcp"] [] 0)
    let (_, r2) ← cmdSet isort fisort fEnv s.st (fReq "c" "lb3" 0 ["tcp"] [] 0)
    let (_, r3) ← cmdSet isort fisort fEnv s.st (fReq "c" "lb1" 0 ["tcp"] ["10.0.0.0/33"] 0)
    let (_, r4) ← cmdSet isort fisort fEnv s.st (fReq "b" "lb1" 0 ["tcp"] [] 0)
    let (_, r5) ← cmdSet isort fisort fEnv s.st (fReq "c" "lb1" 0 ["tcp"] [] 9899)
    let (_, r6) ← cmdDelete s.st (some "b".toList)
    let (_, r7) ← cmdDelete s.st none
    return [r1, r2, r3, r4, r5, r6, r7]) = Res.ok [.newLb, .lb, .define, .alter, .sctp, .ok, .name] := by decide +kernel

/-- C45 as stated is false (/repo/src/nfqlb/cmdFlowLb.c:570-640).
* A request without name, when there is a flow: `strncmp` with NULL.
* A request without target, for a flow that exists: `strcmp` with NULL.
* A request for the flow `#b` that `udpencap` made for `b`: its `user_ref` is NULL, and is locked.
* A request with a network of 128 characters that has a colon.
* Any request for a flow whose target was freed by a request that was refused: see `C43_violated`. -/
theorem C45_violated :
    (fRun [.set fEnv (fReq "a" "lb1" 0 ["tcp"] [] 0), .set fEnv { fReq "a" "lb1" 0 ["tcp"] [] 0 with name := none }]).isUb = true ∧
    (fRun [.set fEnv (fReq "a" "lb1" 0 ["tcp"] [] 0), .set fEnv { fReq "a" "lb1" 0 ["tcp"] [] 0 with target := none }]).isUb = true ∧
    (fRun [.set fEnv (fReq "b" "lb1" 0 ["sctp"] [] 9899), .set fEnv (fReq "#b" "lb1" 0 ["tcp"] [] 0)]).isUb = true ∧
    (fRun [.set fEnv (fReq "a" "lb1" 0 ["tcp"] [String.ofList (List.replicate 128 ':')] 0)]).isUb = true ∧
    (fRun [.set fEnv (fReq "a" "lb1" 0 ["tcp"] [] 0), .set fEnv (fReq "a" "lb2" 0 ["xtp"] [] 0), .set fEnv (fReq "a" "lb2" 0 ["tcp"] [] 0)]).isUb = true := by
  refine ⟨?_, ?_, ?_, ?_, ?_⟩ <;> decide +kernel

/-! ### C42 -/

/-- A request with `udpencap` that is executed gives two flows with the same addresses: one for the SCTP packets, and one, without target, for the UDP packets. -/
theorem C42_configured (rq : (Nat → Nat) → List Nat → List Nat) (hq : QSort rq) (fq : List Flow.Flow → List Flow.Flow) (hfq : Sorts fq) (conf : Conf) (s : Sys) (h : Hist rq fq conf s) (env : Env) (c : FlowLb.Cmd) (hc : Named c)
    (he : c.udpencap ≠ 0) (st : St) (hset : cmdSet rq fq env s.st c = .ok (st, .ok)) :
    ∃ f ∈ st.fset.flows, ∃ g ∈ st.fset.flows, some f.name = c.name ∧ f.userRef ≠ 0 ∧ f.udpencap = c.udpencap ∧ f.protocols = some [132] ∧
      g.userRef = 0 ∧ g.udpencap = c.udpencap ∧ g.dsts = f.dsts ∧ g.srcs = f.srcs := by
  have hi := hist_inv hq hfq h
  obtain ⟨f, hf, h1, _, h2, h3, hb, _, hg⟩ := set_done hq hfq hi hc hset
  obtain ⟨g, hg, _, _, g2, g3, gb⟩ := hg he
  have hi2 : Inv ⟨st, s.held⟩ := by
    rcases cmdSet_cases hq hfq hi env hc with ⟨e, _⟩ | ⟨st', r, e, k⟩
    · rw [e] at hset; cases hset
    · rw [e] at hset; cases hset
      exact k (by rintro (h | h) <;> cases h)
  refine ⟨f, hf, g, hg, h1, h3, h2, (hi2.flows f hf).encap h3 (by rw [h2]; exact he), g3, g2, ?_, ?_⟩
  · rcases hb.dsts with ⟨a1, a2⟩ | ⟨l, v, a1, a2, a3⟩
    · rcases gb.dsts with ⟨b1, b2⟩ | ⟨l', v', b1, b2, b3⟩
      · rw [a2, b2]
      · have e1 : c.dsts = none := a1
        have e2 : c.dsts = some l' := b1
        rw [e1] at e2; cases e2
    · rcases gb.dsts with ⟨b1, b2⟩ | ⟨l', v', b1, b2, b3⟩
      · have e1 : c.dsts = some l := a1
        have e2 : c.dsts = none := b1
        rw [e1] at e2; cases e2
      · have e1 : c.dsts = some l := a1
        have e2 : c.dsts = some l' := b1
        rw [e1] at e2; cases e2
        rw [a2] at b2; cases b2
        rw [a3, b3]
  · rcases hb.srcs with ⟨a1, a2⟩ | ⟨l, v, a1, a2, a3⟩
    · rcases gb.srcs with ⟨b1, b2⟩ | ⟨l', v', b1, b2, b3⟩
      · rw [a2, b2]
      · have e1 : c.srcs = none := a1
        have e2 : c.srcs = some l' := b1
        rw [e1] at e2; cases e2
    · rcases gb.srcs with ⟨b1, b2⟩ | ⟨l', v', b1, b2, b3⟩
      · have e1 : c.srcs = some l := a1
        have e2 : c.srcs = none := b1
        rw [e1] at e2; cases e2
      · have e1 : c.srcs = some l := a1
        have e2 : c.srcs = some l' := b1
        rw [e1] at e2; cases e2
        rw [a2] at b2; cases b2
        rw [a3, b3]

theorem portNum_ntohs (x : Raw16) : ntohs x = portNum x := by unfold ntohs portNum; omega

/-- C42, IPv4. When the flow for UDP packets to port `e` has the addresses of an encapsulated packet, and no flow with a target matches the UDP packet, then the packet is handled as the SCTP packet in it: by
a flow that matches the SCTP packet, such that no flow of higher priority does, or `nolb_fwmark` if there is none. Missing: see `C42_violated`. -/
theorem C42_ipv4_partial (rq : (Nat → Nat) → List Nat → List Nat) (hq : QSort rq) (fq : List Flow.Flow → List Flow.Flow) (hfq : Sorts fq) (conf : Conf) (s : Sys) (h : Hist rq fq conf s)
    (x : V4) (u sc : L4) (ulen ucsum : Raw16) (hx : x.WF) (hs : sc.WF) (hu : x.Unfragmented) (hp : x.payload = u.bytes) (hr : u.rest = [ulen.1, ulen.2, ucsum.1, ucsum.2] ++ sc.bytes) (hpr : x.proto = 17)
    (h0 : portNum u.dport ≠ 0)
    (hh : ∃ g ∈ s.st.fset.flows, g.userRef = 0 ∧ g.udpencap = portNum u.dport ∧ addrPasses g.dsts x.dst.mapped = true ∧ addrPasses g.srcs x.src.mapped = true)
    (hno : ∀ f ∈ s.st.fset.flows, f.userRef ≠ 0 → flowMatch (flowKey x.src.mapped x.dst.mapped 17 u.sport u.dport) f s.st.fset.ping 0x0800 x.bytes = .ok .no)
    (st : St) (r : Pkt) (hb : pktBegin conf s.st 0x0800 x.bytes = .ok (st, r)) :
    let k := flowKey x.src.mapped x.dst.mapped 132 sc.sport sc.dport
    (r = .done (.verdict conf.nolb) ∧ ∀ f ∈ s.st.fset.flows, f.userRef ≠ 0 → flowMatch k f s.st.fset.ping 0x0800 x.bytes = .ok .no) ∨
    ∃ f ∈ s.st.fset.flows, f.userRef ≠ 0 ∧ flowMatch k f s.st.fset.ping 0x0800 x.bytes = .ok .yes ∧
      (∀ g ∈ s.st.fset.flows, g.userRef ≠ 0 → f.priority < g.priority → flowMatch k g s.st.fset.ping 0x0800 x.bytes = .ok .no) ∧
      ∃ p, p.key = k ∧ r = .has f.userRef p := by
  intro k
  have hul : u.WF := by
    unfold L4.WF at hs ⊢
    rw [hr]
    unfold L4.bytes
    simp
  have e1 := C14_ipv4_five_tuple 0 x u hx hul hu (by rw [hpr]; exact Or.inr (Or.inl rfl)) hp (.inl rfl)
  rw [hpr] at e1
  have e2 : getHashKey (portNum u.dport) 0x0800 x.bytes = .ok { rc := 4, key := k, fragid := none } := (v4_encap (portNum u.dport) hx hs hp hr hpr h0 rfl).1 hu
  have hi := hist_inv hq hfq h
  rcases encap_lookup hi e1 (Int.le_refl 0) rfl rfl (by rw [portNum_ntohs]; exact e2) (show (0 : Int) ≤ 4 by decide) (by rw [portNum_ntohs]; exact hh) hno hb with h1 | ⟨f, hf, h1, h2, h3, h4⟩
  · exact .inl h1
  · refine .inr ⟨f, hf, h1, ?_, h3, _, rfl, h4⟩
    rcases h2 with h2 | h2
    · rcases ping_proto h2 with h5 | h5
      · exact absurd h5 (show (132 : Nat) ≠ 1 by decide)
      · exact absurd h5 (show (132 : Nat) ≠ 58 by decide)
    · exact h2

/-- C42, IPv6. -/
theorem C42_ipv6_partial (rq : (Nat → Nat) → List Nat → List Nat) (hq : QSort rq) (fq : List Flow.Flow → List Flow.Flow) (hfq : Sorts fq) (conf : Conf) (s : Sys) (h : Hist rq fq conf s)
    (x : V6) (u sc : L4) (ulen ucsum : Raw16) (hx : x.WF) (hs : sc.WF) (hp : x.payload = u.bytes) (hr : u.rest = [ulen.1, ulen.2, ucsum.1, ucsum.2] ++ sc.bytes) (hpr : x.nxt = 17)
    (h0 : portNum u.dport ≠ 0)
    (hh : ∃ g ∈ s.st.fset.flows, g.userRef = 0 ∧ g.udpencap = portNum u.dport ∧ addrPasses g.dsts x.dst = true ∧ addrPasses g.srcs x.src = true)
    (hno : ∀ f ∈ s.st.fset.flows, f.userRef ≠ 0 → flowMatch (flowKey x.src x.dst 17 u.sport u.dport) f s.st.fset.ping 0x86dd x.bytes = .ok .no)
    (st : St) (r : Pkt) (hb : pktBegin conf s.st 0x86dd x.bytes = .ok (st, r)) :
    let k := flowKey x.src x.dst 132 sc.sport sc.dport
    (r = .done (.verdict conf.nolb) ∧ ∀ f ∈ s.st.fset.flows, f.userRef ≠ 0 → flowMatch k f s.st.fset.ping 0x86dd x.bytes = .ok .no) ∨
    ∃ f ∈ s.st.fset.flows, f.userRef ≠ 0 ∧ flowMatch k f s.st.fset.ping 0x86dd x.bytes = .ok .yes ∧
      (∀ g ∈ s.st.fset.flows, g.userRef ≠ 0 → f.priority < g.priority → flowMatch k g s.st.fset.ping 0x86dd x.bytes = .ok .no) ∧
      ∃ p, p.key = k ∧ r = .has f.userRef p := by
  intro k
  have hul : u.WF := by
    unfold L4.WF at hs ⊢
    rw [hr]
    unfold L4.bytes
    simp
  have e1 := C15_ipv6_five_tuple_partial 0 x u hx hul (by rw [hpr]; exact Or.inr (Or.inl rfl)) hp (.inl rfl)
  rw [hpr] at e1
  have e2 : getHashKey (portNum u.dport) 0x86dd x.bytes = .ok { rc := 4, key := k, fragid := none } := v6_encap (portNum u.dport) hx hs hp hr hpr h0 rfl
  have hi := hist_inv hq hfq h
  rcases encap_lookup hi e1 (Int.le_refl 0) rfl rfl (by rw [portNum_ntohs]; exact e2) (show (0 : Int) ≤ 4 by decide) (by rw [portNum_ntohs]; exact hh) hno hb with h1 | ⟨f, hf, h1, h2, h3, h4⟩
  · exact .inl h1
  · refine .inr ⟨f, hf, h1, ?_, h3, _, rfl, h4⟩
    rcases h2 with h2 | h2
    · rcases ping_proto h2 with h5 | h5
      · exact absurd h5 (show (132 : Nat) ≠ 1 by decide)
      · exact absurd h5 (show (132 : Nat) ≠ 58 by decide)
    · exact h2

/-- The packets of the examples after `C19_other_port`, with a flow for SCTP in UDP port 9899 and one for TCP. -/
example : (do
    let s ← fRun [.set fEnv (fReq "t" "lb2" 9 ["tcp"] [] 0), .set fEnv (fReq "s" "lb1" 5 ["sctp"] ["0.0.0.0/0", "::/0"] 9899)]
    let (_, r) ← pktBegin fConf s.st 0x0800 encap4.bytes
    let (_, r6) ← pktBegin fConf s.st 0x86dd encap6.bytes
    let (_, r0) ← pktBegin fConf s.st 0x0800 { tcp4 with proto := 17 }.bytes
    return [r, r6, r0]) =
    Res.ok [.has 2 ⟨4, flowKey a1.mapped a2.mapped 132 (4, 0) (0, 80), none⟩, .has 2 ⟨4, flowKey b1 b2 132 (4, 0) (0, 80), none⟩, .done (.verdict 78)] := by decide +kernel

/-- C42 as stated is false: a flow of lower priority that matches the UDP packet takes it. `flowLookup` goes on after the flow without target, and resets `*udpencap` for the flow that it finds
(/repo/src/lib/flow.c:428-431 and :443-453). Here the SCTP flow (to `lb1`) has priority 5, and the other flow (to `lb2`), for all packets, has priority 1. -/
theorem C42_violated : (do
    let s ← fRun [.set fEnv (fReq "s" "lb1" 5 ["sctp"] [] 9899), .set fEnv (fReq "all" "lb2" 1 [] [] 0)]
    let (_, r) ← pktBegin fConf s.st 0x0800 encap4.bytes
    return r) = Res.ok (.has 2 ⟨0, flowKey a1.mapped a2.mapped 17 (0x9c, 0x40) (0x26, 0xab), none⟩) := by decide +kernel

/-! ### C50 -/

/-- C50. Whatever the state, a packet is dropped, gets `nolb_fwmark`, `notargets_fwmark`, the mark of another active member of the tier (only fragments), an active mark of the load-balancer that the lookup of
the flow found, or is a later fragment that is left to the fragment table. `notargets_fwmark` is given only if the load-balancer has no active target; the mark of a first fragment is an active mark too. -/
theorem C50_results (conf : Conf) (env : Env) (st st' : St) (proto : Nat) (data : Packet) (a : LbAction) (hm : ∀ i, Reachable (env.mag i)) (ht : ∀ d own, conf.tier = some (d, own) → Reachable d)
    (h : pktHandle conf env st proto data = .ok (st', a)) :
    a = .verdict (-1) ∨ a = .verdict conf.nolb ∨ (∃ d own fw, conf.tier = some (d, own) ∧ fw ∈ activeMarks d.active ∧ fw ≠ own ∧ a = .verdict fw) ∨ (∃ k, a = .later k) ∨
    ∃ e q lb v l, getHashKey e proto data = .ok q ∧ flowLookup st.fset q.key proto data 0 = .ok (lb, v) ∧ st.heap lb = some l ∧
      ((activeMarks (env.mag l.seg).active = ∅ ∧ a = .verdict conf.notargets) ∨ ∃ fw ∈ activeMarks (env.mag l.seg).active, a = .verdict fw ∨ ∃ k, a = .first k fw) := by
  obtain ⟨p, hp, hc⟩ := handle_cases (fun i => (hm i).inv) (fun d own h => (ht d own h).inv) h
  rcases hc with ⟨_, h1⟩ | ⟨_, d, own, fw, h1, h2, h3, h4⟩ | ⟨_, _, h1⟩ | ⟨_, _, q, hk, h1⟩
  · exact .inl h1
  · exact .inr (.inr (.inl ⟨d, own, fw, h1, h2, h3, h4⟩))
  · exact .inr (.inr (.inr (.inl ⟨_, h1⟩)))
  · have hq : ∃ e, getHashKey e proto data = .ok q := by
      rcases hk with rfl | ⟨_, hk⟩
      · exact ⟨0, hp⟩
      · exact ⟨_, hk⟩
    obtain ⟨e, hq⟩ := hq
    rcases h1 with ⟨_, h1⟩ | ⟨lb, v, h1, ⟨_, h2⟩ | ⟨_, l, h2, h3⟩⟩
    · exact .inl h1
    · exact .inr (.inl h2)
    · refine .inr (.inr (.inr (.inr ⟨e, q, lb, v, l, hq, h1, h2, ?_⟩)))
      rcases h3 with h3 | ⟨fw, h3, _, h4⟩
      · exact .inl h3
      · refine .inr ⟨fw, h3, ?_⟩
        rcases h4 with ⟨_, h4⟩ | ⟨_, k, _, h4⟩
        · exact .inl h4
        · exact .inr ⟨k, h4⟩

/-- C50. An unfragmented packet that the parser accepts gets `nolb_fwmark` if no flow with a target matches, and otherwise the verdict of the load-balancer of a flow that matches such that no flow of higher
priority does: an active mark, the one that the table has for the packet, or `notargets_fwmark` if there is no active mark. For UDP to a port for encapsulation the SCTP packet in it may be what is
matched (`KeyOf`, C42). -/
theorem C50_nolb (rq : (Nat → Nat) → List Nat → List Nat) (hq : QSort rq) (fq : List Flow.Flow → List Flow.Flow) (hfq : Sorts fq) (conf : Conf) (env : Env) (s : Sys) (hh : Hist rq fq conf s)
    (proto : Nat) (data : Packet) (p : Parsed) (hp : getHashKey 0 proto data = .ok p) (h0 : 0 ≤ p.rc) (h4 : p.rc % 4 = 0)
    (a : LbAction) (st' : St) (hm : ∀ i, Reachable (env.mag i)) (ht : ∀ d own, conf.tier = some (d, own) → Reachable d)
    (h : pktHandle conf env s.st proto data = .ok (st', a)) :
    ∃ q, KeyOf proto data p q ∧
      ((q.rc < 0 ∧ a = .verdict (-1)) ∨
       ((∀ f ∈ s.st.fset.flows, f.userRef ≠ 0 → flowMatch q.key f s.st.fset.ping proto data = .ok .no) ∧ a = .verdict conf.nolb) ∨
       ∃ f ∈ s.st.fset.flows, f.userRef ≠ 0 ∧ (flowMatch q.key f s.st.fset.ping proto data = .ok .ping ∨ flowMatch q.key f s.st.fset.ping proto data = .ok .yes) ∧
         (∀ g ∈ s.st.fset.flows, g.userRef ≠ 0 → f.priority < g.priority → flowMatch q.key g s.st.fset.ping proto data = .ok .no) ∧
         ∃ l, s.st.heap f.userRef = some l ∧
          ((activeMarks (env.mag l.seg).active = ∅ ∧ a = .verdict conf.notargets) ∨
           ∃ fw ∈ activeMarks (env.mag l.seg).active, target (env.mag l.seg) (hashKey q.key conf.hashMode) = .ok fw ∧ (a = .verdict fw ∨ (q.rc % 2 = 1 ∧ ∃ k, a = .first k fw)))) := by
  obtain ⟨p', hp', hc⟩ := handle_cases (fun i => (hm i).inv) (fun d own h => (ht d own h).inv) h
  rw [hp] at hp'
  cases hp'
  rcases hc with ⟨h1, _⟩ | ⟨h1, _⟩ | ⟨h1, _⟩ | ⟨_, _, q, hk, h1⟩
  · omega
  · omega
  · omega
  · refine ⟨q, hk, ?_⟩
    have hi := hist_inv hq hfq hh
    rcases h1 with h1 | ⟨lb, v, h1, h2⟩
    · exact .inl h1
    · have hsp := lookup_spec _ hi.flowset.sorted h1
      rcases hsp with ⟨k1, k2⟩ | ⟨k1, f, hf, k2, k3, k4⟩
      · rcases h2 with ⟨_, h2⟩ | ⟨h2, _⟩
        · exact .inr (.inl ⟨k2, h2⟩)
        · exact absurd k1 h2
      · rcases h2 with ⟨h2, _⟩ | ⟨_, l, h2, h3⟩
        · exact absurd h2 k1
        · refine .inr (.inr ⟨f, hf, by omega, ?_, k4, l, by rw [k2]; exact h2, ?_⟩)
          · rcases k3 with k3 | ⟨k3, _⟩
            · exact .inl k3
            · exact .inr k3
          · rcases h3 with h3 | ⟨fw, h3, h5, h6⟩
            · exact .inl h3
            · refine .inr ⟨fw, h3, h5, ?_⟩
              rcases h6 with ⟨_, h6⟩ | ⟨h7, k, _, h6⟩
              · exact .inl h6
              · exact .inr ⟨h7, k, h6⟩

/-- A TCP packet gets mark 5 from `lb1`, `notargets_fwmark` from `lb2`, and `nolb_fwmark` if there is only a flow for UDP. -/
example : (do
    let s1 ← fRun [.set fEnv (fReq "a" "lb1" 0 ["tcp"] [] 0)]
    let s2 ← fRun [.set fEnv (fReq "a" "lb2" 0 ["tcp"] [] 0)]
    let s3 ← fRun [.set fEnv (fReq "a" "lb1" 0 ["udp"] [] 0)]
    let (_, r1) ← pktHandle fConf fEnv s1.st 0x0800 tcp4.bytes
    let (_, r2) ← pktHandle fConf fEnv s2.st 0x0800 tcp4.bytes
    let (_, r3) ← pktHandle fConf fEnv s3.st 0x0800 tcp4.bytes
    return [r1, r2, r3]) = Res.ok [.verdict 5, .verdict 77, .verdict 78] := by decide +kernel

example : ∀ i, Reachable (fEnv.mag i) := by
  intro i
  unfold fEnv
  dsimp only
  split
  · exact demo_reachable
  · exact ⟨7, 3, demoRnd, [], demo, by decide, demo_init, rfl⟩

end Nfqlb.Props
