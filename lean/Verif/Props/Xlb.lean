import Verif.Proof.Xlb
import Verif.Props.System

/-! The property C91: `nfqlb xlb` from the command lines and the packets to the answers for the kernel. -/

set_option autoImplicit false

namespace Nfqlb.Props

open Nfqlb Nfqlb.XSys Nfqlb.Session Nfqlb.Spec Nfqlb.Spec.Session Nfqlb.Spec.XSys Nfqlb.Spec.Nfq

/-! ### C91 -/

/-- C91, partial: some command lines make load-balancers, then `nfqlb xlb` is started with the shared memory of one of them and a range of queues, and then packets arrive and further command lines are typed, in any order and any
number. Everything runs without undefined behaviour, all queues of the range are served, and the messages to the kernel are right: one for each packet, in order, with its queue and number; the kernel reads it as drop, or as accept
with a mark that is a target at that time. What a client sends to an address, in fragments or not, whatever the protocol, and the ICMP errors about what it gets from there, are all given the same target as long as no command is
given; nothing of that is dropped while there are targets. Missing: packets that are cut off, and some ICMPv6 errors (`C91_violated`); `init` and `delete` of the shared memory in use (C84). -/
theorem C91_whole_partial (nm : Cmd.Str → Option Cmd.Str) (rnd : Nat → Nat) (page : Nat) (hp : 4096 ≤ page) (thread : Nat → Bool) (ht : ∀ q, thread q = true)
    (pre : List Line) (hpre : ∀ l ∈ pre, nm l.shm = some l.shm ∧ l.InRange) (l : Launch) (hl : l.Good nm (after pre)) (evs : List Ev) (hg : Good nm l.tshm evs) :
    ∃ w ts p w' outs, session nm rnd (fun _ => none) (pre.map Line.argv) = .ok (w, ts) ∧ boot nm thread w l.argv = .ok p ∧ (∀ q, q ∈ p.queues ↔ l.first ≤ q ∧ q ≤ l.last) ∧
      run nm rnd page p w (evs.map Ev.event) = .ok (w', outs) ∧ Right l.tshm (after pre) [] evs outs := by
  obtain ⟨w, ts, h1, h2, -⟩ := session_does (nm := nm) (rnd := rnd) pre (w := fun _ => none) (S := fun _ => none) (fun _ => Or.inl ⟨rfl, rfl⟩) hpre
  have hs : Sys.Small (after pre) := Sys.small_after pre (fun _ _ h => by cases h) (fun x hx => (hpre x hx).2)
  have hb := boot_ok ht h2 hl
  obtain ⟨w', outs, h3, h4⟩ := run_right (page := page) (by omega) (rnd := rnd) evs (boot_inv h2 hs hb) hg
  refine ⟨w, ts, _, w', outs, h1, hb, ?_, h3, h4⟩
  intro q
  obtain ⟨_, _, h5, _⟩ := hl
  dsimp only
  rw [List.mem_append, List.mem_range'_1, List.mem_singleton]
  omega

/-- C91, partial: the same for any command line with which `nfqlb xlb` starts. Missing: as above. -/
theorem C91_options_partial (nm : Cmd.Str → Option Cmd.Str) (rnd : Nat → Nat) (page : Nat) (hp : 4096 ≤ page) (thread : Nat → Bool)
    (pre : List Line) (hpre : ∀ l ∈ pre, nm l.shm = some l.shm ∧ l.InRange) (w : Store) (ts : List (Option (List Char))) (hs : session nm rnd (fun _ => none) (pre.map Line.argv) = .ok (w, ts))
    (argv : List (List Char)) (p : Proc) (hb : boot nm thread w argv = .ok p) (evs : List Ev) (hg : Good nm p.tshm evs) :
    ∃ w' outs, run nm rnd page p w (evs.map Ev.event) = .ok (w', outs) ∧ Right p.tshm (after pre) [] evs outs := by
  obtain ⟨w1, ts1, h1, h2, -⟩ := session_does (nm := nm) (rnd := rnd) pre (w := fun _ => none) (S := fun _ => none) (fun _ => Or.inl ⟨rfl, rfl⟩) hpre
  rw [hs] at h1
  cases h1
  have hsm : Sys.Small (after pre) := Sys.small_after pre (fun _ _ h => by cases h) (fun x hx => (hpre x hx).2)
  exact run_right (by omega) evs (boot_inv h2 hsm hb) hg

def xsLaunch : Launch := ⟨"a".toList, 2, 3⟩

/-- A packet with a number in queue 2. -/
def xsPkt (id : UInt8) (proto : Raw16) (data : Packet) : Ev :=
  .packet ⟨2, id.toNat, value [proto.1, proto.2], data⟩ ⟨(0, 2), true, some ⟨(0, 0, 0, id), proto⟩, some data⟩

/-- TCP over IPv4, two fragments between the same addresses, an ICMP error, TCP over IPv6, two fragments, an ICMPv6 error; then target 5 and 6 go and 3 comes, and TCP again; then there are no targets. -/
def xsEvs : List Ev :=
  [xsPkt 1 (8, 0) tcp4.bytes, xsPkt 2 (8, 0) frag4a.bytes, xsPkt 3 (8, 0) frag4b.bytes, xsPkt 4 (8, 0) err4.bytes, xsPkt 5 (0x86, 0xdd) tcp6.bytes, xsPkt 6 (0x86, 0xdd) frag6a.bytes, xsPkt 7 (0x86, 0xdd) frag6b.bytes,
    xsPkt 8 (0x86, 0xdd) err6.bytes, .line (.deactivate "a".toList [5, 6]), .line (.activate "a".toList [3]), xsPkt 9 (8, 0) tcp4.bytes, .line (.deactivate "a".toList [3]), xsPkt 10 (8, 0) tcp4.bytes]

example : xsLaunch.Good some (after syPre) := ⟨rfl, sy_after _ (.inl rfl), by decide, by decide⟩

/-- All of them belong to what one client sends. -/
example : Belongs ⟨2, 1, 0x0800, tcp4.bytes⟩ a1.mapped a2.mapped ∧ Belongs ⟨2, 2, 0x0800, frag4a.bytes⟩ a1.mapped a2.mapped ∧ Belongs ⟨2, 3, 0x0800, frag4b.bytes⟩ a1.mapped a2.mapped ∧
    Belongs ⟨2, 4, 0x0800, err4.bytes⟩ a1.mapped a2.mapped ∧ Belongs ⟨2, 5, 0x86dd, tcp6.bytes⟩ b1 b2 ∧ Belongs ⟨2, 6, 0x86dd, frag6a.bytes⟩ b1 b2 ∧ Belongs ⟨2, 7, 0x86dd, frag6b.bytes⟩ b1 b2 ∧
    Belongs ⟨2, 8, 0x86dd, err6.bytes⟩ b1 b2 := by
  have e4 : Enough tcp4.proto tcp4.payload := by unfold Enough HasPorts; decide
  have e6 : Enough tcp6.nxt tcp6.payload := by unfold Enough HasPorts; decide
  have n6 : ¬ IsExt 6 := by unfold IsExt; decide
  refine ⟨.inl ⟨tcp4, ?_, rfl, rfl, rfl, rfl, .inr (.inl ⟨by decide, e4⟩)⟩, .inl ⟨frag4a, ?_, rfl, rfl, rfl, rfl, .inr (.inl ⟨by decide, e4⟩)⟩, .inl ⟨frag4b, ?_, rfl, rfl, rfl, rfl, .inl ⟨?_, by decide⟩⟩,
    .inr (.inl ⟨err4, answer4, ⟨3, 4, (0, 0), (0, 0), (5, 0x14), answer4.bytes⟩, ?_, ?_, rfl, rfl, ?_, rfl, rfl, by decide, rfl, ?_, rfl, rfl⟩), .inr (.inr (.inl ⟨tcp6, ?_, rfl, rfl, rfl, rfl, .inl ⟨by decide, n6, e6⟩⟩)),
    .inr (.inr (.inl ⟨frag6a, ?_, rfl, rfl, rfl, rfl, .inr (.inr ⟨rfl, ⟨6, 0, (0, 1), (1, 2), (3, 4)⟩, _, rfl, .inr ⟨rfl, by decide, n6⟩⟩)⟩)),
    .inr (.inr (.inl ⟨frag6b, ?_, rfl, rfl, rfl, rfl, .inr (.inr ⟨rfl, ⟨6, 0, (0, 16), (1, 2), (3, 4)⟩, _, rfl, .inl (by decide)⟩)⟩)),
    .inr (.inr (.inr ⟨err6, answer6, ⟨2, 0, (0, 0), (0, 0), (5, 0x14), answer6.bytes⟩, ?_, ?_, rfl, rfl, rfl, rfl, by decide, rfl, n6, ?_, rfl, rfl⟩))⟩ <;>
    first | (unfold V4.WF; decide) | (unfold V6.WF; decide) | (unfold V4.LaterFragment V4.fragOffset; decide) | (unfold V4.Unfragmented V4.fragOffset V4.moreFragments; decide) | (unfold Enough HasPorts; decide)

example : Good some xsLaunch.tshm xsEvs := by
  have h4 : ∀ x : Packet, x[9]? ≠ some 1 → Spec.Pkt.Whole (value [8, 0]) x := fun x h => sy_whole4 h
  have he4 : Spec.Pkt.Whole (value [8, 0]) err4.bytes := by
    refine Server.whole_of ⟨fun _ b0 h _ => ?_, fun h => absurd h (by decide)⟩
    have : err4.bytes[0]? = some 0x45 := by decide
    rw [this] at h
    cases h
    decide
  have h6 : ∀ (x : Packet) (n : UInt8), x[6]? = some n → ¬ IsExt n → (n = 58 → 46 ≤ x.length) → Spec.Pkt.Whole (value [0x86, 0xdd]) x := by
    intro x n hn hx h58
    refine Server.whole_of ⟨fun h => absurd h (by decide), fun _ nxt t pos h1 h2 => ?_⟩
    rw [hn] at h1
    cases h1
    cases h2 with
    | upper _ => exact ⟨h58, fun h => absurd (by rw [h]; unfold IsExt; decide) hx⟩
    | frag => exact absurd (by unfold IsExt; decide) hx
    | step h => exact absurd h hx
  have h44 : ∀ (x : Packet), x[6]? = some 44 → x[40]? = some 6 → 48 ≤ x.length → Spec.Pkt.Whole (value [0x86, 0xdd]) x := by
    intro x hn h40 hl
    refine Server.whole_of ⟨fun h => absurd h (by decide), fun _ nxt t pos h1 h2 => ?_⟩
    rw [hn] at h1
    cases h1
    cases h2 with
    | upper h => exact absurd (by unfold IsExt; decide) h
    | frag =>
      refine ⟨fun h => absurd h (by decide), fun _ => ⟨hl, ?_⟩⟩
      intro n r o0 o1 hn' _ _ _ _
      rw [h40] at hn'
      cases hn'
      exact ⟨by unfold IsExt; decide, fun h => absurd h (by decide)⟩
    | step _ h => exact absurd rfl h
  have cr : ∀ (id : UInt8) (proto : Raw16) (data : Packet), data.length < 65536 → Carries ⟨(0, 2), true, some ⟨(0, 0, 0, id), proto⟩, some data⟩ ⟨2, id.toNat, value [proto.1, proto.2], data⟩ := by
    intro id proto data hl
    exact ⟨rfl, (by decide : 2 = value [0, 2]), rfl, hl, _, rfl, by simp [value], rfl⟩
  have n6 : ¬ IsExt 6 := by unfold IsExt; decide
  have n58 : ¬ IsExt 58 := by unfold IsExt; decide
  refine ⟨cr _ _ _ (by decide), h4 _ (by decide), cr _ _ _ (by decide), h4 _ (by decide), cr _ _ _ (by decide), h4 _ (by decide), cr _ _ _ (by decide), he4, ?_⟩
  refine ⟨cr _ _ _ (by decide), h6 _ 6 (by decide) n6 (by decide), cr _ _ _ (by decide), h44 _ (by decide) (by decide) (by decide), cr _ _ _ (by decide), h44 _ (by decide) (by decide) (by decide), ?_⟩
  refine ⟨cr _ _ _ (by decide), h6 _ 58 (by decide) n58 (by decide), rfl, by simp [Line.InRange], trivial, rfl, by simp [Line.InRange], trivial, ?_⟩
  exact ⟨cr _ _ _ (by decide), h4 _ (by decide), rfl, by simp [Line.InRange], trivial, cr _ _ _ (by decide), h4 _ (by decide), trivial⟩

/-- What the kernel reads in this example: queue, number, mark, and whether the packet is accepted. -/
example : (do
    let (w, _) ← session some demoRnd (fun _ => none) (syPre.map Line.argv)
    let p ← boot some (fun _ => true) w xsLaunch.argv
    let (_, outs) ← run some demoRnd 4096 p w (xsEvs.map Ev.event)
    return outs.map Nl.verdict) = .ok [some (2, 1, 6, 1), some (2, 2, 6, 1), some (2, 3, 6, 1), some (2, 4, 6, 1), some (2, 5, 6, 1), some (2, 6, 6, 1), some (2, 7, 6, 1), some (2, 8, 6, 1), some (2, 9, 3, 1),
      some (2, 10, 0, 0)] := by decide +kernel

/-- An ICMPv6 error from a router about an answer from `b2` to `b1`. -/
def routerErr6 (type : UInt8) : V6 :=
  { tcp6 with src := [0x20, 1, 0, 0, 0, 0, 0, 0, 0, 0, 0, 0, 0, 0, 0, 2], dst := b2, nxt := 58, payload := Icmp.bytes ⟨type, 0, (0, 0), (0, 0), (0, 0), answer6.bytes⟩ }

/-- C91 as stated is false. An ICMPv6 error for which the time is exceeded (type 3) does not go to the target of the packet that it is about, though one that says "unreachable" (type 1) does. A first IPv6 fragment that goes on with
destination options stops the program, it never answers any more. And a packet that is cut off after the first byte of ICMP is undefined behaviour. -/
theorem C91_violated :
    (do
      let (w, _) ← session some demoRnd (fun _ => none) (syPre.map Line.argv)
      let p ← boot some (fun _ => true) w xsLaunch.argv
      let (_, outs) ← run some demoRnd 4096 p w ([xsPkt 1 (0x86, 0xdd) tcp6.bytes, xsPkt 2 (0x86, 0xdd) (routerErr6 1).bytes, xsPkt 3 (0x86, 0xdd) (routerErr6 3).bytes].map Ev.event)
      return outs.map Nl.verdict) = .ok [some (2, 1, 6, 1), some (2, 2, 6, 1), some (2, 3, 5, 1)] ∧
    (do
      let (w, _) ← session some demoRnd (fun _ => none) (syPre.map Line.argv)
      let p ← boot some (fun _ => true) w xsLaunch.argv
      let _ ← run some demoRnd 4096 p w ([xsPkt 1 (0x86, 0xdd) hanging.bytes].map Ev.event)
      return ()) = .hang ∧
    (do
      let (w, _) ← session some demoRnd (fun _ => none) (syPre.map Line.argv)
      let p ← boot some (fun _ => true) w xsLaunch.argv
      let _ ← run some demoRnd 4096 p w ([xsPkt 1 (8, 0) { tcp4 with proto := 1, payload := [8] }.bytes].map Ev.event)
      return ()) = .ub := by decide +kernel

end Nfqlb.Props
