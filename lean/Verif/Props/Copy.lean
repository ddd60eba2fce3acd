import Verif.Proof.Copy
import Verif.Spec.Copy
import Verif.Props.EndToEnd
import Verif.Props.Trace

/-! C86: the part of a packet that is not copied does not matter. -/

set_option autoImplicit false

namespace Nfqlb.Props

open Nfqlb Nfqlb.Spec.Copy Nfqlb.Nfq
open Nfqlb.Spec (V4 V6 L4 IsExt ExtHdr)
open Nfqlb.Spec.Pkt (NoWrap)
open Nfqlb.Spec.RS (QSort)
open Nfqlb.Spec.FL (Sorts)

theorem copyRange_large {mtu : Nat} (h : mtuOk mtu = true) : 576 ≤ copyRange mtu := by
  unfold mtuOk at h
  have := of_decide_eq_true h
  unfold copyRange
  split <;> omega

/-- C86 for `lb` (partial): with every mtu that is accepted, every packet without IPv6 extension headers is handled as if all of it had been copied. This includes packets that are dropped. -/
theorem C86_lb_partial (c : LbConf) (mtu proto : Nat) (data : Packet) (hm : mtuOk mtu = true) (hn : NoExt proto data) :
    lbDecide c proto (copied mtu data) = lbDecide c proto data := by
  have := copyRange_large hm
  unfold lbDecide copied
  rw [key_take c.udpEncap proto data (by omega) hn]

/-- C86 for `xlb` (partial), whose mtu is 576. -/
theorem C86_xlb_partial (d : Maglev.Mag) (proto : Nat) (data : Packet) (hn : NoExt proto data) : xlbDecide d proto (copied 576 data) = xlbDecide d proto data := by
  have := copyRange_large (mtu := 576) (by decide)
  unfold xlbDecide copied
  rw [key_take 0 proto data (by omega) hn]

/-- C86 for `flowlb` (partial): in every history of the server, as long as the match expressions of the flows do not exceed 32 bits (C47). -/
theorem C86_flowlb_partial (rq : (Nat → Nat) → List Nat → List Nat) (hq : QSort rq) (fq : List Flow.Flow → List Flow.Flow) (hfq : Sorts fq) (conf : FlowLb.Conf) (s : Server.Sys) (hh : Spec.Srv.Hist rq fq conf s)
    (hw : NoWrap s.srv.st.fset) (env : FlowLb.Env) (mtu proto : Nat) (data : Packet) (hm : mtuOk mtu = true) (hn : NoExt proto data) :
    FlowLb.pktHandle conf env s.srv.st proto (copied mtu data) = FlowLb.pktHandle conf env s.srv.st proto data := by
  have := copyRange_large hm
  have hi := Server.hist_sinv hq hfq hh
  refine FlowLb.pktHandle_take conf env ?_ proto data (by omega) hn
  intro f hf m hmt i him
  obtain ⟨l, hl⟩ := (hi.draw f hf).1.mtch m hmt
  exact (C47_in_header_partial l m hl (hw f hf m hmt)).1 i him

/-- C86 for all packets, one direction: a packet that has a key for what was copied of it, with any mtu, has the same key as a whole. So a packet with extension headers is dropped, or handled as if all of it had been copied. -/
theorem C86_key (udpencap mtu proto : Nat) (data : Packet) (p : Parsed) (h : getHashKey udpencap proto (copied mtu data) = .ok p) (hp : 0 ≤ p.rc) :
    getHashKey udpencap proto data = .ok p := by
  have e := key_more udpencap proto (copied mtu data) (data.drop (copyRange mtu)) p h hp
  rwa [copied, List.take_append_drop] at e

/-- C86 for `lb`, all packets: what was copied of a packet is dropped because it has no key, or it is handled as the packet. -/
theorem C86_lb_all (c : LbConf) (mtu proto : Nat) (data : Packet) (a : LbAction) (h : lbDecide c proto (copied mtu data) = .ok a) :
    a = .verdict (-1) ∨ lbDecide c proto data = .ok a := by
  unfold lbDecide at h ⊢
  obtain ⟨p, hp, h⟩ := Server.bind_ok h
  by_cases hr : p.rc < 0
  · rw [if_pos hr] at h
    cases h
    exact .inl rfl
  · rw [C86_key _ _ _ _ p hp (by omega)]
    exact .inr h

/-! ### Cases -/

/-- A TCP packet with 700 bytes of data, as with GSO. -/
def long4 : V4 := { tcp4 with totlen := (2, 0xe8), payload := tcp4.payload ++ List.replicate 700 7 }
def long6 : V6 := { tcp6 with plen := (2, 0xd0), payload := tcp6.payload ++ List.replicate 700 7 }

example : mtuOk 576 = true ∧ (copied 576 long4.bytes).length = 576 ∧ long4.bytes.length = 744 ∧ lbDecide demoConf 0x0800 (copied 576 long4.bytes) = .ok (.verdict 5) := by
  refine ⟨?_, ?_, ?_, ?_⟩ <;> decide +kernel

example : NoExt 0x0800 long4.bytes := fun h => absurd h (by decide)

example : NoExt 0x86dd long6.bytes ∧ (copied 600 long6.bytes).length = 600 ∧ long6.bytes.length = 760 := by
  refine ⟨fun _ => ⟨fun t ht => ?_, fun h => absurd h (by decide +kernel)⟩, by decide +kernel, by decide +kernel⟩
  rw [show long6.bytes[6]? = some 6 by decide +kernel] at ht
  cases ht
  unfold IsExt
  decide

/-- A flow with a match expression, and the long packet: the hypotheses of `C86_flowlb_partial`, and its conclusion. -/
example : (do let (s, _) ← sRun [sConn "action:set\nname:a\ntarget:lb1\nprotocols:tcp\nmatch:tcp[13:1]&2=2\neoc:\n"]
              let (_, a) ← FlowLb.pktHandle fConf fEnv s.srv.st 0x0800 (copied 576 long4.bytes)
              return (s.srv.st.fset.flows.all (fun f => match f.mtch with | some m => m.all (fun i => decide (i.offset + i.nbytes < 4294967296)) | none => false), a)) =
    (do let (s, _) ← sRun [sConn "action:set\nname:a\ntarget:lb1\nprotocols:tcp\nmatch:tcp[13:1]&2=2\neoc:\n"]
        let (_, a) ← FlowLb.pktHandle fConf fEnv s.srv.st 0x0800 long4.bytes
        return (true, a)) := by decide +kernel

/-- A TCP packet over IPv6 with 752 bytes of destination options, as the parser counts them (C15). -/
def opt6 : V6 := { tcp6 with nxt := 60, payload := ([6, 94] ++ List.replicate 750 0) ++ tcp6.payload }

/-- A later fragment with 700 bytes of data. -/
def frag4long : V4 := { tcp4 with flagsFrag := (0, 3), payload := List.replicate 700 7 }

/-- **C86 as stated is false.**
* A packet with extension headers that are longer than the mtu is dropped, which would be forwarded if all of it had been copied.
* A later fragment that is longer than the mtu is cut off; therefore it is not refused by the test for its length (/repo/src/lib/fragutils.c:372), but stored, and what is injected after the first
  fragment is the part that was copied: a fragment without its end. -/
theorem C86_violated :
    (lbDecide demoConf 0x86dd opt6.bytes = .ok (.verdict 7) ∧ lbDecide demoConf 0x86dd (copied 576 opt6.bytes) = .ok (.verdict (-1))) ∧
    ((do let (_, r) ← E2E.handle (Frag.create 1 2 3 576 200 false) (eArr 0x0800 frag4long.bytes 1 1)
         return r) = Res.ok (-1, []) ∧
     (do let (ft, _) ← E2E.handle (Frag.create 1 2 3 576 200 false) (eArr 0x0800 frag4long.bytes 1 1)
         let (_, r) ← E2E.handle ft (eArr 0x0800 frag4a.bytes 2 2)
         return r) = Res.ok (5, []) ∧
     (do let (ft, _) ← E2E.handle (Frag.create 1 2 3 576 200 false) (eArr 0x0800 (copied 576 frag4long.bytes) 1 1)
         let (_, r) ← E2E.handle ft (eArr 0x0800 (copied 576 frag4a.bytes) 2 2)
         return r) = Res.ok (5, [1])) := by
  refine ⟨⟨?_, ?_⟩, ?_, ?_, ?_⟩ <;> decide +kernel

/-- The reason for the second part: whatever arrives, what was copied is not longer than the fragments that can be stored. -/
theorem C86_never_too_long (mtu : Nat) (data : Packet) (hm : mtuOk mtu = true) : (copied mtu data).length ≤ mtu := by
  have : 576 ≤ mtu := by unfold mtuOk at hm; exact of_decide_eq_true hm
  unfold copied copyRange
  rw [List.length_take]
  split <;> omega

end Nfqlb.Props
