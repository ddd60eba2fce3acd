import Verif.Model.Nfqueue

/-! What the verdicts shall be: one for each packet, with its number and queue, that follows from what the handler said. -/

namespace Nfqlb.Spec.Nfq

open Nfqlb Nfqlb.Nfq

/-- A packet from the kernel: queue, number, protocol and data. -/
structure Queued where
  queue : Nat
  id : Nat
  proto : Nat
  data : List UInt8
  deriving Repr, DecidableEq

/-- The value of bytes in network byte order. -/
def value : List UInt8 → Nat
  | [] => 0
  | b :: bs => b.toNat * 256 ^ bs.length + value bs

/-- The message `m` carries the packet `p`. -/
def Carries (m : Msg) (p : Queued) : Prop :=
  m.parses = true ∧ p.queue = value [m.resId.1, m.resId.2] ∧ m.payload = some p.data ∧ p.data.length < 65536 ∧
  ∃ h, m.hdr = some h ∧ p.id = value [h.packetId.1, h.packetId.2.1, h.packetId.2.2.1, h.packetId.2.2.2] ∧
    p.proto = value [h.hwProtocol.1, h.hwProtocol.2]

/-- The handler, started in `st`, gives the results `rs` for the packets, and ends in `st'`. The results are of the type `int`. -/
inductive Handles {σ : Type} (handle : Handler σ) : σ → List Queued → List Int → σ → Prop
  | nil (st : σ) : Handles handle st [] [] st
  | cons {st st1 st2 : σ} {p : Queued} {ps : List Queued} {r : Int} {rs : List Int} :
    handle st p.proto p.data p.data.length = .ok (st1, r) → -2147483648 ≤ r → r < 2147483648 →
    Handles handle st1 ps rs st2 → Handles handle st (p :: ps) (r :: rs) st2

/-- NF_DROP and NF_ACCEPT of the kernel. -/
def nfDrop : Nat := 0
def nfAccept : Nat := 1

/-- The answer to packet `p` when the handler has returned `r`. -/
def Answers (v : Verdict) (p : Queued) (r : Int) : Prop :=
  v.queue = p.queue ∧ v.id = p.id ∧
  (r < 0 → v.verdict = nfDrop) ∧ (0 ≤ r → v.verdict = nfAccept ∧ (v.mark : Int) = r)

/-- One answer for each packet, in order. -/
inductive AllAnswered : List Verdict → List Queued → List Int → Prop
  | nil : AllAnswered [] [] []
  | cons {v : Verdict} {vs : List Verdict} {p : Queued} {ps : List Queued} {r : Int} {rs : List Int} :
    Answers v p r → AllAnswered vs ps rs → AllAnswered (v :: vs) (p :: ps) (r :: rs)

/-- The messages carry the packets, in order. -/
inductive AllCarried : List Msg → List Queued → Prop
  | nil : AllCarried [] []
  | cons {m : Msg} {ms : List Msg} {p : Queued} {ps : List Queued} : Carries m p → AllCarried ms ps → AllCarried (m :: ms) (p :: ps)

end Nfqlb.Spec.Nfq
