import Verif.Proof.FlowSystem
import Verif.Props.System
import Verif.Props.FlowLb

/-! The property C89: from the command lines, the requests and the packets to the answers of `nfqlb flowlb`. -/

set_option autoImplicit false

namespace Nfqlb.Props

open Nfqlb Nfqlb.FSys Nfqlb.Session Nfqlb.Spec Nfqlb.Spec.Session Nfqlb.Spec.FSys Nfqlb.Spec.Nfq Nfqlb.Spec.RS Nfqlb.Spec.FL

/-! ### C89 -/

/-- C89, partial: some command lines make load-balancers, then `nfqlb flowlb` is started, maybe with a tier, and then packets arrive, flows are set and deleted with `nfqlb flow-set` and `nfqlb flow-delete`, other bytes come to the
control server, and further command lines are typed, in any order and any number. Everything runs without undefined behaviour, and what is sent is right: each request gets its answer, each packet one message to the kernel, with its queue
and number; the kernel reads it as drop, or as accept with the mark for packets without flow, or with a mark that is a target of a flow at that time (or the mark for no targets), or, for fragments, a target of the tier or
the mark of an earlier fragment of the datagram. For unfragmented packets with ports it comes from a flow that is for the packet and has the highest priority of these; it is the mark for packets without flow exactly if there is none;
and packets with the same addresses and ports that the same flows are for get the same mark as long as no command is given. Missing: what `C89_violated` has; flows for SCTP in UDP (C42); `init` and `delete` of the shared memory
in use (C84); events that overlap (C07, C33, C72); other options of `nfqlb flowlb` (but see `C89_options_partial`). -/
theorem C89_whole_partial (rq : (Nat → Nat) → List Nat → List Nat) (hq : QSort rq) (fq : List Flow.Flow → List Flow.Flow) (hfq : Sorts fq) (nm : Cmd.Str → Option Cmd.Str) (rnd : Nat → Nat) (page : Nat) (hp : 4096 ≤ page)
    (e : Start.Env) (hm : Sys.Mem e) (pre : List Line) (hpre : ∀ l ∈ pre, nm l.shm = some l.shm ∧ l.InRange) (l : Launch) (hl : l.Good nm (after pre)) (evs : List Spec.FSys.Ev) (hg : Good nm l.cfg (after pre) [] 0 evs) :
    ∃ w ts p w' p' outs, session nm rnd (fun _ => none) (pre.map Line.argv) = .ok (w, ts) ∧ boot nm e w l.argv = .ok p ∧ p.s.queues = [l.queue] ∧
      run rq fq nm rnd page w p (evs.map Ev.event) = .ok (w', p', outs) ∧ Right l.cfg (after pre) [] [] [] evs outs := by
  obtain ⟨w, ts, h1, h2, -⟩ := session_does (nm := nm) (rnd := rnd) pre (w := fun _ => none) (S := fun _ => none) (fun _ => Or.inl ⟨rfl, rfl⟩) hpre
  have hs : Sys.Small (after pre) := Sys.small_after pre (fun _ _ h => by cases h) (fun x hx => (hpre x hx).2)
  have hb := boot_ok hm h2 hl
  obtain ⟨N, MB, MF, T, i⟩ := boot_inv hq hfq h2 hs hb (by show 0 < 500; omega)
  obtain ⟨w', p', outs, h3, h4⟩ := run_right hq hfq (page := page) (by omega) (rnd := rnd) evs i hg
  exact ⟨w, ts, _, w', p', outs, h1, hb, rfl, h3, h4⟩

/-- C89, partial: the same for any command line with which `nfqlb flowlb` starts, as long as the table of fragments is not empty. Missing: as above. -/
theorem C89_options_partial (rq : (Nat → Nat) → List Nat → List Nat) (hq : QSort rq) (fq : List Flow.Flow → List Flow.Flow) (hfq : Sorts fq) (nm : Cmd.Str → Option Cmd.Str) (rnd : Nat → Nat) (page : Nat) (hp : 4096 ≤ page) (e : Start.Env)
    (pre : List Line) (hpre : ∀ l ∈ pre, nm l.shm = some l.shm ∧ l.InRange) (w : Session.Store) (ts : List (Option (List Char))) (hs : session nm rnd (fun _ => none) (pre.map Line.argv) = .ok (w, ts))
    (argv : List (List Char)) (p : Proc) (hb : boot nm e w argv = .ok p) (h0 : 0 < p.s.hsize) (evs : List Spec.FSys.Ev) (hg : Good nm ⟨p.lbshm, p.s.notargets, p.s.nolb⟩ (after pre) [] 0 evs) :
    ∃ w' p' outs, run rq fq nm rnd page w p (evs.map Ev.event) = .ok (w', p', outs) ∧ Right ⟨p.lbshm, p.s.notargets, p.s.nolb⟩ (after pre) [] [] [] evs outs := by
  obtain ⟨w1, ts1, h1, h2, -⟩ := session_does (nm := nm) (rnd := rnd) pre (w := fun _ => none) (S := fun _ => none) (fun _ => Or.inl ⟨rfl, rfl⟩) hpre
  rw [hs] at h1
  cases h1
  have hsm : Sys.Small (after pre) := Sys.small_after pre (fun _ _ h => by cases h) (fun x hx => (hpre x hx).2)
  obtain ⟨N, MB, MF, T, i⟩ := boot_inv hq hfq h2 hsm hb h0
  exact run_right hq hfq (by omega) evs i hg

/-- TCP to port 80. -/
def fsWeb : Spec.FSys.Flow := ⟨⟨"web".toList, 10, 0, some ["tcp".toList], some [(80, 80)], none, some [.v4 ⟨0, 0, 0, 0⟩ 0], none, none, 0⟩, "a".toList⟩

/-- Everything, at the lowest priority. -/
def fsAll : Spec.FSys.Flow := ⟨⟨"all".toList, 0, 0, none, none, none, none, none, none, 0⟩, "b".toList⟩

/-- Shared memory that does not exist. -/
def fsNone : Spec.FSys.Flow := ⟨⟨"none".toList, 5, 0, none, none, none, none, none, none, 0⟩, "c".toList⟩

/-- What `nfqlb flow-set` sends. -/
def fsText (f : Spec.FSys.Flow) : List Char :=
  match Remote.cmdFlowSet f.request.opts with
  | .ok t => t
  | _ => []

def fsSet (f : Spec.FSys.Flow) : Spec.FSys.Ev := .set f (fsText f) (fun _ => 0)

/-- A packet with a number in queue 2. -/
def fsPkt (id : UInt8) (proto : Raw16) (data : Packet) (now : Nat) : Spec.FSys.Ev :=
  .packet ⟨2, id.toNat, value [proto.1, proto.2], data⟩ ⟨(0, 2), true, some ⟨(0, 0, 0, id), proto⟩, some data⟩ ⟨now, id.toNat, true, 1⟩

def fsLaunch : Launch := ⟨some "b".toList, none, some 99, 2⟩

/-- TCP to port 80 without flows; the flows are made; TCP over IPv4, and over IPv6 (which the first flow is not for); two fragments; bytes that are no request; the first flow is deleted; TCP again. -/
def fsEvs : List Spec.FSys.Ev :=
  [fsPkt 1 (8, 0) tcp4.bytes 1, fsSet fsAll, fsSet fsWeb, fsSet fsNone, fsPkt 2 (8, 0) tcp4.bytes 2, fsPkt 3 (0x86, 0xdd) tcp6.bytes 3, fsPkt 4 (8, 0) frag4a.bytes 4, fsPkt 5 (8, 0) frag4b.bytes 5, .other "x\n".toList (fun _ => 0),
    .line (.deactivate "a".toList [5]), fsPkt 6 (8, 0) tcp4.bytes 6, .delete "web".toList (fun _ => 0), fsPkt 7 (8, 0) tcp4.bytes 7]

example : fsLaunch.Good some (after syPre) :=
  ⟨fun u hu => ⟨rfl, sy_after u (.inr (by cases hu; rfl))⟩, fun n h => (by cases h), fun n h => (by cases h; decide), by decide⟩

/-- What is sent in the example: to the kernel queue, number, mark, and whether the packet is accepted; to clients the answer. -/
inductive FsSeen where
  | verdict (queue id mark accept : Nat)
  | answer (r : FlowLb.Reply)
  | other
  deriving DecidableEq

def fsShow : FSys.Sent → FsSeen
  | .kernel b => match Nl.verdict b with
    | some (q, i, m, v) => .verdict q i m v
    | none => .other
  | .client (.reply r) => .answer r
  | .client _ => .other

theorem fs_web : fsWeb.Good := by
  refine ⟨⟨by decide, ?_, ?_, ?_, ?_, ?_, ?_⟩, ⟨by unfold Rem.Clean; decide +kernel, by unfold Rem.Clean; decide +kernel, ?_, ?_, ?_, ?_, ?_, ?_, ?_, ?_⟩, rfl, by decide, ?_, ?_, by decide⟩
  · rintro l ⟨⟩ s hs
    simp only [List.mem_cons, List.not_mem_nil, or_false] at hs
    subst hs
    exact ⟨.tcp, by decide⟩
  · rintro l ⟨⟩; decide +kernel
  · rintro l ⟨⟩
  · rintro l ⟨⟩; decide +kernel
  · rintro l ⟨⟩
  · rintro l ⟨⟩
  · rintro l ⟨⟩; decide
  · rintro l ⟨⟩; unfold Rem.Items Rem.Clean; decide +kernel
  · rintro l ⟨⟩; unfold Rem.Items Rem.Clean; decide +kernel
  · rintro l ⟨⟩
  · rintro l ⟨⟩; unfold Rem.Clean; decide +kernel
  · rintro l ⟨⟩
  · rintro l ⟨⟩
  · rintro l ⟨⟩
  · rintro l ⟨⟩; decide +kernel
  · rintro l ⟨⟩

theorem fs_plain (name shm : List Char) (prio : Int) (h : Rem.Clean name ∧ name.length ≤ 1000) (h' : Rem.Clean shm) (hn : name.head? ≠ some '#') (hp : -1073741824 ≤ prio ∧ prio ≤ 1073741823) :
    Spec.FSys.Flow.Good ⟨⟨name, prio, 0, none, none, none, none, none, none, 0⟩, shm⟩ := by
  refine ⟨⟨by show name.length ≤ 1023; omega, ?_, ?_, ?_, ?_, ?_, ?_⟩, ⟨h, h', ?_, ?_, ?_, ?_, ?_, ?_, ?_, ?_⟩, rfl, hn, ?_, ?_, hp⟩
  case refine_7 => rintro l ⟨⟩; show _ ≤ prio ∧ prio ≤ _; omega
  all_goals rintro l ⟨⟩

theorem fs_whole6 : Spec.Pkt.Whole (value [0x86, 0xdd]) tcp6.bytes := by
  refine Server.whole_of ⟨fun h => absurd h (by decide), fun _ nxt t pos h1 h2 => ?_⟩
  have : nxt = 6 := by
    have : tcp6.bytes[6]? = some 6 := by decide
    rw [this] at h1
    exact (Option.some.inj h1).symm
  subst this
  cases h2 with
  | upper _ => exact ⟨fun h => absurd h (by decide), fun h => absurd h (by decide)⟩
  | step h => exact absurd h (by unfold IsExt; decide)

theorem fs_port {proto : Nat} {data : Packet} (h : (match getHashKey 0 proto data with | .ok q => decide (q.key.proto ≠ (17, 0)) | _ => true) = true) : ¬ FLB.UdpPort0 proto data := by
  rintro ⟨p, h1, h2, -⟩
  rw [h1] at h
  exact of_decide_eq_true h h2

example : Good some fsLaunch.cfg (after syPre) [] 0 fsEvs := by
  have h4 : ∀ x : Packet, x[9]? ≠ some 1 → Spec.Pkt.Whole (value [8, 0]) x := fun x h => sy_whole4 h
  have cr : ∀ (id : UInt8) (proto : Raw16) (data : Packet), data.length < 65536 → Carries ⟨(0, 2), true, some ⟨(0, 0, 0, id), proto⟩, some data⟩ ⟨2, id.toNat, value [proto.1, proto.2], data⟩ := by
    intro id proto data hl
    exact ⟨rfl, (by decide : 2 = value [0, 2]), rfl, hl, _, rfl, by simp [value], rfl⟩
  have n4 : ¬ FLB.UdpPort0 (value [8, 0]) tcp4.bytes := fs_port (by decide +kernel)
  have all : fsAll.Good := fs_plain _ _ _ (by unfold Rem.Clean; decide) (by unfold Rem.Clean; decide) (by decide) (by decide)
  have non : fsNone.Good := fs_plain _ _ _ (by unfold Rem.Clean; decide) (by unfold Rem.Clean; decide) (by decide) (by decide)
  refine ⟨cr _ _ _ (by decide), h4 _ (by decide), n4, by decide, by decide, ?_⟩
  refine ⟨all, rfl, by decide +kernel, fs_web, rfl, by decide +kernel, non, rfl, by decide +kernel, ?_⟩
  refine ⟨cr _ _ _ (by decide), h4 _ (by decide), n4, by decide, by decide, ?_⟩
  refine ⟨cr _ _ _ (by decide), fs_whole6, fs_port (by decide +kernel), by decide, by decide, ?_⟩
  refine ⟨cr _ _ _ (by decide), h4 _ (by decide), fs_port (by decide +kernel), by decide, by decide, ?_⟩
  refine ⟨cr _ _ _ (by decide), h4 _ (by decide), fs_port (by decide +kernel), by decide, by decide, ?_⟩
  refine ⟨fun c hc => absurd hc (by rw [show Srv.request "x\n".toList = none by decide +kernel]; exact nofun), ?_⟩
  refine ⟨rfl, by simp [Line.InRange], trivial, ?_⟩
  refine ⟨cr _ _ _ (by decide), h4 _ (by decide), n4, by decide, by decide, ?_⟩
  refine ⟨by unfold Rem.Clean; decide, by decide, ?_⟩
  exact ⟨cr _ _ _ (by decide), h4 _ (by decide), n4, by decide, by decide, trivial⟩

example : (do
    let (w, _) ← session some demoRnd (fun _ => none) (syPre.map Line.argv)
    let p ← boot some stEnv w fsLaunch.argv
    let (_, _, outs) ← run isort fisort some demoRnd 4096 w p (fsEvs.map Ev.event)
    return outs.map fsShow) = .ok [.verdict 2 1 99 1, .answer .ok, .answer .ok, .answer .lb, .verdict 2 2 5 1, .verdict 2 3 1 1, .verdict 2 4 5 1, .verdict 2 5 5 1, .other, .verdict 2 6 6 1, .answer .ok, .verdict 2 7 1 1] := by
  decide +kernel

/-- A request for the first flow with another target and a protocol that does not exist. -/
def fsBad : List Char := "action:set\nname:web\ntarget:b\nprotocols:xtp\neoc:\n".toList

/-- C89 as stated is false: a single IPv6 packet (a first fragment that goes on with destination options) stops the program, it never answers any more. And a request to set a flow to another target that is refused because of its protocol
leaves the flow with a load-balancer that is no longer there: the next packet of the flow is undefined behaviour. -/
theorem C89_violated :
    (do
      let (w, _) ← session some demoRnd (fun _ => none) (syPre.map Line.argv)
      let p ← boot some stEnv w fsLaunch.argv
      let _ ← run isort fisort some demoRnd 4096 w p ([fsSet fsAll, fsPkt 1 (0x86, 0xdd) hanging.bytes 1].map Ev.event)
      return ()) = .hang ∧
    (do
      let (w, _) ← session some demoRnd (fun _ => none) (syPre.map Line.argv)
      let p ← boot some stEnv w fsLaunch.argv
      let _ ← run isort fisort some demoRnd 4096 w p ([fsSet fsWeb, .other fsBad (fun _ => 0), fsPkt 1 (8, 0) tcp4.bytes 1].map Ev.event)
      return ()) = .ub := by decide +kernel

end Nfqlb.Props
