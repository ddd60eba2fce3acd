import Verif.Spec.Hash

/-! Which packets the parser can not cope with, told by their bytes.  For C92. -/

namespace Nfqlb.Spec

/-- The ICMP (ICMPv6) header at `pos` is cut: the packet ends before its type, or the type is echo request (`echo`) and the
packet ends before the identifier at offset 4 does. -/
def IcmpCut (echo : UInt8) (d : Packet) (pos : Nat) : Prop :=
  d.length ≤ pos ∨ (d[pos]? = some echo ∧ d.length < pos + 6)

/-- An IPv4 packet with ICMP (protocol 1) that is not a later fragment and whose ICMP header is cut.  At most 20 bytes, or a
header length below 5 words, is refused at once. -/
def Cut4 (d : Packet) : Prop :=
  20 < d.length ∧ ∃ b0 f0 f1 : UInt8, d[0]? = some b0 ∧ 5 ≤ b0.toNat % 16 ∧ d[6]? = some f0 ∧ d[7]? = some f1 ∧
    (f0.toNat * 256 + f1.toNat) % 8192 = 0 ∧ d[9]? = some 1 ∧ IcmpCut 8 d (4 * (b0.toNat % 16))

/-- Following the bytes "next header" and "length in 8 bytes" from the fragment header on, with no check at all: from a header of type `t`
at `pos` one comes to a header of type `t'` at `pos'`. -/
inductive Follow (d : Packet) : UInt8 → Nat → UInt8 → Nat → Prop where
  | here {t : UInt8} {pos : Nat} : Follow d t pos t pos
  | step {t : UInt8} {pos : Nat} {n l : UInt8} {t' : UInt8} {pos' : Nat} :
      IsExt t → d[pos]? = some n → d[pos + 1]? = some l → Follow d n (pos + l.toNat * 8) t' pos' → Follow d t pos t' pos'

/-- The headers of a first fragment, from its fragment header at `pos`, lead to an extension header whose first two bytes are not in the packet. -/
def Leaves (d : Packet) (pos : Nat) : Prop :=
  ∃ t' pos', Follow d 44 pos t' pos' ∧ IsExt t' ∧ d.length < pos' + 2

/-- They lead to an extension header of length 0 that is followed by an extension header: the same bytes are read again. -/
def Circles (d : Packet) (pos : Nat) : Prop :=
  ∃ t' pos' n, Follow d 44 pos t' pos' ∧ IsExt t' ∧ d[pos']? = some n ∧ IsExt n ∧ d[pos' + 1]? = some 0

/-- The fragment header at `pos` is complete and says offset 0. -/
def First6 (d : Packet) (pos : Nat) : Prop :=
  pos + 8 ≤ d.length ∧ ∃ o0 o1 : UInt8, d[pos + 2]? = some o0 ∧ d[pos + 3]? = some o1 ∧ (o0.toNat * 256 + o1.toNat) / 8 = 0

/-- An IPv6 packet of more than 40 bytes whose extension headers lead to a header of type `t` at `pos`, which is a fragment
header or no extension header. -/
def Leads6 (d : Packet) (t : UInt8) (pos : Nat) : Prop :=
  40 < d.length ∧ ∃ nxt, d[6]? = some nxt ∧ ChainEnd d nxt 40 t pos

/-- The IPv6 packets with a header that is read though it is cut. -/
def Cut6 (d : Packet) : Prop :=
  ∃ t pos, Leads6 d t pos ∧
    ((t = 58 ∧ IcmpCut 128 d pos) ∨
     (t = 44 ∧ d.length < pos + 8) ∨
     (t = 44 ∧ First6 d pos ∧ Leaves d pos) ∨
     (t = 44 ∧ First6 d pos ∧ ∃ pos', Follow d 44 pos 58 pos' ∧ IcmpCut 128 d pos'))

/-- The IPv6 packets on which the parser goes round for ever. -/
def Circle6 (d : Packet) : Prop := ∃ pos, Leads6 d 44 pos ∧ First6 d pos ∧ Circles d pos

end Nfqlb.Spec
