import Verif.Model.CopyOut

/-! What C96 is about: bytes that arrive, and outputs that take them. -/

set_option autoImplicit false

namespace Nfqlb.Spec.CO

open Nfqlb.CopyOut

/-- The bytes that arrive at the client, in whatever pieces. -/
def Arrives (k : Kernel) (bytes : List Char) : Prop := k.pieces.flatten = bytes

/-- `write` takes some of the bytes, or fails. -/
def PosixWrite (w : Nat → Nat → Int) : Prop := ∀ i n, -1 ≤ w i n ∧ w i n ≤ n

/-- The output takes everything it is given. -/
def TakesAll (w : Nat → Nat → Int) : Prop := ∀ i n, w i n = n

/-- The `i`-th piece is not taken as a whole. -/
def Short (k : Kernel) (i : Nat) : Prop := ∃ p, k.pieces[i]? = some p ∧ k.write i p.length ≠ p.length

end Nfqlb.Spec.CO
