import Verif.Model.EndToEnd

/-! Fragments that come before the first fragment: they are kept and written to the tun device, /repo/src/lib/fragutils.c:378-428 and :453-474, /repo/src/nfqlb/cmdLb.c:40-51 and /repo/src/nfqlb/cmdFlowLb.c:81-91.
On top of `Verif/Model/EndToEnd.lean`: the calls do not overlap in time. -/

namespace Nfqlb.Tun

open Nfqlb.Frag (Ft)
open Nfqlb.E2E (Arrival)

/-- The fragment table, and the packets handled so far: the number of a packet is its place here, and a stored item (/repo/src/lib/fragutils.c:393-394) is the number of the packet that was copied. Packets of which no copy
was made are kept too, this is not in the code. -/
structure St where
  ft : Ft
  mem : List Packet

/-- `injectFrag` for each of the stored items, /repo/src/lib/fragutils.c:465-470, /repo/src/nfqlb/cmdLb.c:40-51 and /repo/src/nfqlb/cmdFlowLb.c:81-91: what is passed to `write`. `tun`: there is a tun device (`tun_fd >= 0`).
What `write` returns does not matter. -/
def writes (tun : Bool) (mem : List Packet) : List Nat → Res (List Packet)
  | [] => .ok []
  | i :: is =>
    match mem[i]? with
    | none => .ub
    | some p => do
      let ps ← writes tun mem is
      return if tun then p :: ps else ps

/-- The packet handler, /repo/src/nfqlb/cmdLb.c:53-115 and /repo/src/nfqlb/cmdFlowLb.c:93-231: the value returned and the packets written. The number `a.id` is not used. -/
def handle (tun : Bool) (s : St) (a : Arrival) : Res (St × Int × List Packet) := do
  let (ft, v, ids) ← E2E.handle s.ft { a with id := s.mem.length }
  let ps ← writes tun (s.mem ++ [a.data]) ids
  return (⟨ft, s.mem ++ [a.data]⟩, v, ps)

/-- A sequence of packets: for each of them the value returned and the packets written. The calls of `handlePacket` in /repo/src/lib/nfqueue.c:100, one after the other. -/
def run (tun : Bool) (s : St) : List Arrival → Res (St × List (Int × List Packet))
  | [] => .ok (s, [])
  | a :: as => do
    let (s, o) ← handle tun s a
    let (s, os) ← run tun s as
    return (s, o :: os)

end Nfqlb.Tun
