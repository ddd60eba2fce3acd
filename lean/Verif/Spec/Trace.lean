import Verif.Model.Trace
import Verif.Spec.PktSafe

/-! What tracing should do. -/

namespace Nfqlb.Spec.Trc

open Nfqlb.Spec

/-- The text has a line for the fwmark, as decimal number. -/
def Tells (t : List Char) (fw : Int) : Prop :=
  ∃ before after, t = before ++ "fwmark=".toList ++ (if fw < 0 then '-' :: Nat.toDigits 10 fw.natAbs else Nat.toDigits 10 fw.natAbs) ++ ['\n'] ++ after

/-- `Skips data t pos t' pos'`: going through the headers of `data` from a header of type `t` at `pos`, fragment headers included, taking the second byte of each as its length in 8-byte units, one arrives at a header of type
`t'` at `pos'` which is no extension header. -/
inductive Skips (data : Packet) : UInt8 → Nat → UInt8 → Nat → Prop where
  | upper {t : UInt8} {pos : Nat} : ¬ IsExt t → Skips data t pos t pos
  | step {t : UInt8} {pos : Nat} {nxt l : UInt8} {t' : UInt8} {pos' : Nat} :
      IsExt t → pos + 2 < data.length → data[pos]? = some nxt → data[pos + 1]? = some l → l ≠ 0 → Skips data nxt (pos + l.toNat * 8) t' pos' → Skips data t pos t' pos'

/-- If the packet has an ICMP header, all 8 bytes of it are there. -/
def IcmpWhole (proto : Nat) (d : Packet) : Prop :=
  (proto = 0x0800 → ∀ b0, d[0]? = some b0 → d[9]? = some 1 → 4 * (b0.toNat % 16) + 8 ≤ d.length) ∧
  (proto = 0x86dd → ∀ nxt pos, d[6]? = some nxt → Skips d nxt 40 58 pos → pos + 8 ≤ d.length)

/-- The trace that is taken from the server. -/
def trOf (s : Server.Srv) (mask : Nat) : Trace.Tr := ⟨mask, s.trace, s.names⟩

/-- The events in the order of their bits, as the help of `nfqlb trace` lists them. -/
def eventNames : List (List Char) := ["log".toList, "packet".toList, "frag".toList, "flow-conf".toList, "sctp".toList, "target".toList, "flows".toList]

end Nfqlb.Spec.Trc
