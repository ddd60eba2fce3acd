import Verif.Model.EndToEnd

/-! When fragments follow the first fragment. -/

namespace Nfqlb.Spec.E2E

open Nfqlb.E2E

/-- The clock does not go backwards (from `t` on) and stays in 64 bits. -/
def Timed : Nat → List Arrival → Prop
  | _, [] => True
  | t, a :: as => t ≤ a.now ∧ a.now < 2 ^ 64 ∧ Timed a.now as

/-- `a` is handled here as a first fragment of the datagram with key `k` and mark `fw`. -/
def IsFirst (a : Arrival) (k : Key) (fw : Int) : Prop := action a = .ok (.first k fw)

/-- `a` is handled here as a later fragment of the datagram with key `k`. -/
def IsLater (a : Arrival) (k : Key) : Prop := action a = .ok (.later k)

/-- All packets about `k` get what follows from its first fragment having got `fw`, until one comes more than `T` after the one before (the first of these at `last`) or the datagram is complete: later fragments
get `fw`, first fragments are dropped. -/
def Follows (k : Key) (fw : Int) (T : Nat) : Nat → List (Arrival × Int) → Prop
  | _, [] => True
  | last, (a, v) :: l =>
    (IsLater a k → a.now ≤ last + T → v = fw ∧ (a.rcAsm = 0 ∨ Follows k fw T a.now l)) ∧
    ((∃ fw', IsFirst a k fw') → a.now ≤ last + T → v = -1 ∧ Follows k fw T a.now l) ∧
    (¬ IsLater a k → (∀ fw', ¬ IsFirst a k fw') → Follows k fw T last l)

end Nfqlb.Spec.E2E
