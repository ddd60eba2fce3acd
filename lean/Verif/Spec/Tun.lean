import Verif.Spec.EndToEnd
import Verif.Model.Tun

/-! Words for fragments that overtake the first fragment. -/

namespace Nfqlb.Spec.Tun

open Nfqlb.E2E Nfqlb.Spec.E2E

/-- `a` is a fragment of the datagram with key `k` that is handled here and not dropped before the table is asked. -/
def About (a : Arrival) (k : Key) : Prop := IsLater a k ∨ ∃ fw, IsFirst a k fw

/-- Fragments of `k` never come more than `T` after the one before. -/
def Together (T : Nat) (k : Key) (l : List Arrival) : Prop :=
  ∀ l1 a l2 b l3, l = l1 ++ a :: l2 ++ b :: l3 → About a k → About b k → (∀ c ∈ l2, ¬ About c k) → b.now ≤ a.now + T

/-- The contents of the later fragments of `k`, in the order in which they come. -/
def laters (k : Key) (l : List Arrival) : List Packet := (l.filter (fun a => decide (action a = .ok (.later k)))).map Arrival.data

/-- There is room: all fragments are of at most `mb` datagrams, and there are at most `mf` later fragments. -/
structure Room (mb mf : Nat) (l : List Arrival) : Prop where
  dgrams : ∃ ks : List Key, ks.length ≤ mb ∧ ∀ a ∈ l, ∀ k, About a k → k ∈ ks
  frags : l.countP (fun a => match action a with | .ok (.later _) => true | _ => false) ≤ mf

end Nfqlb.Spec.Tun
