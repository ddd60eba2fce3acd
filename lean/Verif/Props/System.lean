import Verif.Proof.System
import Verif.Props.EndToEnd
import Verif.Props.Session

/-! The property C88: from the command lines and the packets to the answers for the kernel. -/

set_option autoImplicit false

namespace Nfqlb.Props

open Nfqlb Nfqlb.Sys Nfqlb.Session Nfqlb.Spec Nfqlb.Spec.Session Nfqlb.Spec.Sys Nfqlb.Spec.Nfq

/-! ### C88 -/

/-- C88, partial: some command lines make load-balancers, then `nfqlb lb` is started with the shared memory of one of them, maybe with a tier, and then packets arrive and further command lines are typed, in any order and any
number. Everything runs without undefined behaviour, and the messages to the kernel are right: one for each packet, in order, with its queue and number; the kernel reads it as drop, or as accept with a mark that is a target at that
time (or the mark for no targets), or, for fragments, a target of the tier or the mark of an earlier fragment of the datagram. Unfragmented packets with ports are never dropped while there are targets, and all packets of a flow
get the same mark as long as no command is given. Missing: packets that are cut off (`C88_violated`), `init` and `delete` of the shared memory in use (C84), other options of `nfqlb lb` (but see `C88_options_partial`). -/
theorem C88_whole_partial (nm : Cmd.Str → Option Cmd.Str) (rnd : Nat → Nat) (page : Nat) (hp : 4096 ≤ page) (e : Start.Env) (hm : Mem e)
    (pre : List Line) (hpre : ∀ l ∈ pre, nm l.shm = some l.shm ∧ l.InRange) (l : Launch) (hl : l.Good nm (after pre)) (evs : List Ev) (hg : Good nm l.cfg 0 evs) :
    ∃ w ts p w' p' outs, session nm rnd (fun _ => none) (pre.map Line.argv) = .ok (w, ts) ∧ boot nm e w l.argv = .ok p ∧ p.s.queues = [l.queue] ∧
      run nm rnd page w p (evs.map Ev.event) = .ok (w', p', outs) ∧ Right l.cfg (after pre) [] [] evs outs := by
  obtain ⟨w, ts, h1, h2, -⟩ := session_does (nm := nm) (rnd := rnd) pre (w := fun _ => none) (S := fun _ => none) (fun _ => Or.inl ⟨rfl, rfl⟩) hpre
  have hs : Small (after pre) := small_after pre (fun _ _ h => by cases h) (fun x hx => (hpre x hx).2)
  have hb := boot_ok hm h2 hl
  obtain ⟨N, MB, MF, T, i⟩ := boot_inv h2 hs hb (by show 0 < 500; omega)
  obtain ⟨w', p', outs, h3, h4⟩ := run_right (page := page) (by omega) (rnd := rnd) evs i hg
  exact ⟨w, ts, _, w', p', outs, h1, hb, rfl, h3, h4⟩

/-- C88, partial: the same for any command line with which `nfqlb lb` starts, as long as the table of fragments is not empty (`--ft_size=0` is accepted, see `C77_violated`). Missing: as above. -/
theorem C88_options_partial (nm : Cmd.Str → Option Cmd.Str) (rnd : Nat → Nat) (page : Nat) (hp : 4096 ≤ page) (e : Start.Env)
    (pre : List Line) (hpre : ∀ l ∈ pre, nm l.shm = some l.shm ∧ l.InRange) (w : Store) (ts : List (Option (List Char))) (hs : session nm rnd (fun _ => none) (pre.map Line.argv) = .ok (w, ts))
    (argv : List (List Char)) (p : Proc) (hb : boot nm e w argv = .ok p) (h0 : 0 < p.s.hsize) (evs : List Ev) (hg : Good nm ⟨p.tshm, p.lbshm, p.s.notargets, p.s.udpEncap⟩ 0 evs) :
    ∃ w' p' outs, run nm rnd page w p (evs.map Ev.event) = .ok (w', p', outs) ∧ Right ⟨p.tshm, p.lbshm, p.s.notargets, p.s.udpEncap⟩ (after pre) [] [] evs outs := by
  obtain ⟨w1, ts1, h1, h2, -⟩ := session_does (nm := nm) (rnd := rnd) pre (w := fun _ => none) (S := fun _ => none) (fun _ => Or.inl ⟨rfl, rfl⟩) hpre
  rw [hs] at h1
  cases h1
  have hsm : Small (after pre) := small_after pre (fun _ _ h => by cases h) (fun x hx => (hpre x hx).2)
  obtain ⟨N, MB, MF, T, i⟩ := boot_inv h2 hsm hb h0
  exact run_right (by omega) evs i hg

/-- Two load-balancers: `a` with the targets 5 and 6, and `b`, the tier, where this machine is 1. -/
def syPre : List Line := [.init "a".toList 0 7 3, .init "b".toList 1 7 3, .activate "a".toList [5, 6], .activate "b".toList [1]]

def syLaunch : Launch := ⟨"a".toList, some "b".toList, none, 0, 2⟩

/-- A packet with a number in queue 2. -/
def syPkt (id : UInt8) (proto : Raw16) (data : Packet) (now : Nat) : Ev :=
  .packet ⟨2, id.toNat, value [proto.1, proto.2], data⟩ ⟨(0, 2), true, some ⟨(0, 0, 0, id), proto⟩, some data⟩ ⟨now, id.toNat, true, 1⟩

/-- TCP packets over IPv4 and IPv6, two fragments, then target 5 and 6 go and 3 comes, a later fragment, and TCP again; then there are no targets. -/
def syEvs : List Ev :=
  [syPkt 1 (8, 0) tcp4.bytes 1, syPkt 2 (8, 0) tcp4.bytes 2, syPkt 3 (0x86, 0xdd) tcp6.bytes 3, syPkt 4 (8, 0) frag4a.bytes 4, syPkt 5 (8, 0) frag4b.bytes 5, .line (.deactivate "a".toList [5, 6]), .line (.activate "a".toList [3]),
    syPkt 6 (8, 0) frag4b.bytes 6, syPkt 7 (8, 0) tcp4.bytes 7, .line (.deactivate "a".toList [3]), syPkt 8 (8, 0) tcp4.bytes 8]

example : Mem stEnv := by unfold Mem; decide

example : ∀ l ∈ syPre, some l.shm = some l.shm ∧ l.InRange := by
  intro l hl
  simp only [syPre, List.mem_cons, List.not_mem_nil, or_false] at hl
  refine ⟨rfl, ?_⟩
  rcases hl with rfl | rfl | rfl | rfl <;> simp [Line.InRange]

/-- C88: if the shared memory of a table is not there, `nfqlb lb` reports it and exits; nothing is set up. -/
theorem C88_missing (nm : Cmd.Str → Option Cmd.Str) (e : Start.Env) (w : Store) (l : Launch)
    (h : (∀ k, nm l.tshm = some k → w k = none) ∨ ∃ u, l.lbshm = some u ∧ ∀ k, nm u = some k → w k = none) : boot nm e w l.argv = .die := by
  have key : ∀ u, (∀ k, nm u = some k → w k = none) → mapObj nm w u = .die := by
    intro u hu
    unfold mapObj
    cases hk : nm u with
    | none => rfl
    | some k => dsimp only; rw [if_pos (hu k hk)]
  have dich : ∀ u, mapObj nm w u = .die ∨ ∃ k, mapObj nm w u = .ok k := by
    intro u
    unfold mapObj
    cases hk : nm u with
    | none => exact .inl rfl
    | some k =>
      dsimp only
      by_cases hw : w k = none
      · rw [if_pos hw]; exact .inl rfl
      · rw [if_neg hw]; exact .inr ⟨k, rfl⟩
  obtain ⟨vars, n, hp, ht, hl, -⟩ := parse_launch l
  unfold boot
  rw [hp, Res.ok_bind]
  dsimp only
  rw [ht, hl]
  dsimp only
  rcases dich l.tshm with hd | ⟨k, hk⟩
  · rw [hd]; rfl
  · rcases h with h | ⟨u, hu, h⟩
    · rw [key _ h] at hk; cases hk
    · rw [hk, Res.ok_bind, hu]
      dsimp only
      rw [key u h]; rfl

example : boot some stEnv (fun _ => none) syLaunch.argv = .die := C88_missing _ _ _ _ (.inl fun _ _ => rfl)

theorem sy_after (n : List Char) (h : n = "a".toList ∨ n = "b".toList) : after syPre n ≠ none := by
  have h7 : 3 ≤ tableSize 7 := Nat.le_findGreatest (by decide) Nat.prime_three
  have e1 : syPre = [.init "a".toList 0 7 3, .init "b".toList 1 7 3, .activate "a".toList [5, 6], .activate "b".toList [1]] := rfl
  unfold after
  rw [e1]
  have ne : "b".toList ≠ "a".toList := by decide
  have ne' : "a".toList ≠ "b".toList := by decide
  simp only [List.foldl_cons, List.foldl_nil, Line.apply, if_pos h7, Spec.Session.set, if_pos, if_neg ne, if_neg ne']
  rcases h with rfl | rfl
  · simp
  · simp

example : syLaunch.Good some (after syPre) :=
  ⟨⟨rfl, sy_after _ (.inl rfl)⟩, fun u hu => ⟨rfl, sy_after u (.inr (by cases hu; rfl))⟩, fun n h => (by cases h), by decide, by decide⟩

theorem sy_whole4 {x : Packet} (h : x[9]? ≠ some 1) : Spec.Pkt.Whole 0x0800 x := Server.whole_of ⟨fun _ _ _ h' => absurd h' h, fun h => absurd h (by decide)⟩

example : Good some syLaunch.cfg 0 syEvs := by
  have h4 : ∀ x : Packet, x[9]? ≠ some 1 → Spec.Pkt.Whole (value [8, 0]) x := fun x h => sy_whole4 h
  have c4 : Spec.Pkt.Whole (value [0x86, 0xdd]) tcp6.bytes := by
    refine Server.whole_of ⟨fun h => absurd h (by decide), fun _ nxt t pos h1 h2 => ?_⟩
    have : nxt = 6 := by
      have : tcp6.bytes[6]? = some 6 := by decide
      rw [this] at h1
      exact (Option.some.inj h1).symm
    subst this
    cases h2 with
    | upper _ => exact ⟨fun h => absurd h (by decide), fun h => absurd h (by decide)⟩
    | step h => exact absurd h (by unfold IsExt; decide)
  have cr : ∀ (id : UInt8) (proto : Raw16) (data : Packet), data.length < 65536 → Carries ⟨(0, 2), true, some ⟨(0, 0, 0, id), proto⟩, some data⟩ ⟨2, id.toNat, value [proto.1, proto.2], data⟩ := by
    intro id proto data hl
    exact ⟨rfl, (by decide : 2 = value [0, 2]), rfl, hl, _, rfl, by simp [value], rfl⟩
  refine ⟨cr _ _ _ (by decide), h4 _ (by decide), by decide, by decide, ?_⟩
  refine ⟨cr _ _ _ (by decide), h4 _ (by decide), by decide, by decide, ?_⟩
  refine ⟨cr _ _ _ (by decide), c4, by decide, by decide, ?_⟩
  refine ⟨cr _ _ _ (by decide), h4 _ (by decide), by decide, by decide, ?_⟩
  refine ⟨cr _ _ _ (by decide), h4 _ (by decide), by decide, by decide, ?_⟩
  refine ⟨rfl, by simp [Line.InRange], trivial, rfl, by simp [Line.InRange], trivial, ?_⟩
  refine ⟨cr _ _ _ (by decide), h4 _ (by decide), by decide, by decide, ?_⟩
  refine ⟨cr _ _ _ (by decide), h4 _ (by decide), by decide, by decide, ?_⟩
  refine ⟨rfl, by simp [Line.InRange], trivial, ?_⟩
  exact ⟨cr _ _ _ (by decide), h4 _ (by decide), by decide, by decide, trivial⟩

/-- What the kernel reads in this example: queue, number, mark, and whether the packet is accepted. -/
example : (do
    let (w, _) ← session some demoRnd (fun _ => none) (syPre.map Line.argv)
    let p ← boot some stEnv w syLaunch.argv
    let (_, _, outs) ← run some demoRnd 4096 w p (syEvs.map Ev.event)
    return outs.map Nl.verdict) = .ok [some (2, 1, 5, 1), some (2, 2, 5, 1), some (2, 3, 5, 1), some (2, 4, 5, 1), some (2, 5, 5, 1), some (2, 6, 5, 1), some (2, 7, 3, 1), some (2, 8, 0, 0)] := by decide +kernel

/-- C88 as stated is false: a single IPv6 packet (a first fragment that goes on with destination options) stops the program, it never answers any more. And a packet that is cut off after the first byte of ICMP is undefined behaviour. -/
theorem C88_violated :
    (do
      let (w, _) ← session some demoRnd (fun _ => none) (syPre.map Line.argv)
      let p ← boot some stEnv w syLaunch.argv
      let _ ← run some demoRnd 4096 w p ([syPkt 1 (0x86, 0xdd) hanging.bytes 1].map Ev.event)
      return ()) = .hang ∧
    (do
      let (w, _) ← session some demoRnd (fun _ => none) (syPre.map Line.argv)
      let p ← boot some stEnv w syLaunch.argv
      let _ ← run some demoRnd 4096 w p ([syPkt 1 (8, 0) { tcp4 with proto := 1, payload := [8] }.bytes 1].map Ev.event)
      return ()) = .ub := by decide +kernel

end Nfqlb.Props
