import Verif.Model.Packet

/-! The djb2 hash and the parser's view of an extension header chain. -/

namespace Nfqlb.Spec

/-- The djb2 hash (Bernstein): start with 5381, multiply by 33 and add each byte; the result modulo 2^32. -/
def djb2 (l : List UInt8) : Nat := (l.foldl (fun h c => h * 33 + c.toNat) 5381) % 2 ^ 32

/-- Hop-by-hop 0, routing 43, fragment 44, destination options 60. -/
def IsExt (t : UInt8) : Prop := t = 0 ∨ t = 43 ∨ t = 44 ∨ t = 60

/-- `ChainEnd data t pos t' pos'`: going through the headers of `data` from a header of type `t` at `pos`, taking the second byte of each
as its length in 8-byte units, one arrives at a header of type `t'` at `pos'` which is a fragment header or no extension header. -/
inductive ChainEnd (data : Packet) : UInt8 → Nat → UInt8 → Nat → Prop where
  | upper {t : UInt8} {pos : Nat} : ¬ IsExt t → ChainEnd data t pos t pos
  | frag {pos : Nat} : ChainEnd data 44 pos 44 pos
  | step {t : UInt8} {pos : Nat} {nxt l : UInt8} {t' : UInt8} {pos' : Nat} :
      IsExt t → t ≠ 44 → pos + 2 < data.length → data[pos]? = some nxt → data[pos + 1]? = some l → l ≠ 0 →
      ChainEnd data nxt (pos + l.toNat * 8) t' pos' → ChainEnd data t pos t' pos'

end Nfqlb.Spec
