import Verif.Model.Ipu
import Verif.Spec.Flow

/-! Addresses as numbers, and what it means that an address is put together from a base, a net number and a host number. -/

namespace Nfqlb.Spec.Ipu

open Nfqlb.Spec.FL

/-- The number that bytes in network byte order denote. -/
def value : List UInt8 → Nat
  | [] => 0
  | b :: bs => b.toNat * 256 ^ bs.length + value bs

/-- The first `s` of `bits` bits of a number. -/
def first (bits s v : Nat) : Nat := v / 2 ^ (bits - s)

/-- The address `r` has the first `s1` bits of the base, then the net number in `s2 - s1` bits, then the host number. -/
def Composed (bits base s1 s2 net host r : Nat) : Prop :=
  first bits s1 r = first bits s1 base ∧ first bits s2 r % 2 ^ (s2 - s1) = net ∧ r % 2 ^ (bits - s2) = host

instance (bits base s1 s2 net host r : Nat) : Decidable (Composed bits base s1 s2 net host r) := inferInstanceAs (Decidable (_ ∧ _ ∧ _))

/-- `address/s1/s2`. -/
def cidrText (t : List Char) (s1 s2 : Nat) : List Char := t ++ '/' :: (Nat.toDigits 10 s1 ++ '/' :: Nat.toDigits 10 s2)

/-- The numbers fit. -/
def Fit (bits s1 s2 : Nat) (net host : Int) : Prop := 0 ≤ net ∧ net < 2 ^ (s2 - s1) ∧ 0 ≤ host ∧ host < 2 ^ (bits - s2)

instance (bits s1 s2 : Nat) (net host : Int) : Decidable (Fit bits s1 s2 net host) := inferInstanceAs (Decidable (_ ∧ _ ∧ _ ∧ _))

/-- An address in text, of one of the families. -/
inductive Adr where
  | v4 (a : Addr4)
  | v6 (a : Addr6)
  deriving Repr, DecidableEq

def Adr.text : Adr → List Char
  | .v4 a => dotted a
  | .v6 a => a.text

def Adr.WF : Adr → Prop
  | .v4 _ => True
  | .v6 a => a.WF

def Adr.bits : Adr → Nat
  | .v4 _ => 32
  | .v6 _ => 128

def Adr.value : Adr → Nat
  | .v4 a => Ipu.value a.bytes
  | .v6 a => Ipu.value a.bytes

/-- Family and the first `s` bits agree. -/
def Within (c : Adr) (s : Nat) (a : Adr) : Prop := c.bits = a.bits ∧ first c.bits s c.value = first a.bits s a.value

instance (c : Adr) (s : Nat) (a : Adr) : Decidable (Within c s a) := inferInstanceAs (Decidable (_ ∧ _))

end Nfqlb.Spec.Ipu
