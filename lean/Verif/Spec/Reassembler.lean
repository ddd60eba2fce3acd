import Verif.Model.Reassembler

/-! What "all bytes have arrived" means, independent of the reassembler. -/

namespace Nfqlb.Ra

/-- A fragment of a datagram: the bytes `first ≤ b < first + len` of its payload, and whether the "more fragments" bit is set. -/
structure Frag where
  first : Nat
  len : Nat
  more : Bool
  deriving Repr, DecidableEq

/-- Byte `b` is in one of the fragments. -/
def Covered (hist : List Frag) (b : Nat) : Prop := ∃ f ∈ hist, f.first ≤ b ∧ b < f.first + f.len

/-- A fragment of a datagram with `L` bytes: not empty, and the "more fragments" bit is set exactly if there is something after it. -/
def Genuine (L : Nat) (f : Frag) : Prop := 0 < f.len ∧ if f.more then f.first + f.len < L else f.first + f.len = L

/-- Everything has arrived: the last fragment, and each byte of the datagram. -/
def Complete (L : Nat) (hist : List Frag) : Prop := (∃ f ∈ hist, f.more = false) ∧ ∀ b < L, Covered hist b

/-- No fragment leaves a gap on both sides: when a fragment that is not the last one arrives, it begins the datagram, or the byte before it or the byte after it
has been received.  Fragments that come in order, also in reverse order, are such. -/
def NoGap (frags : List Frag) : Prop :=
  ∀ pre f post, frags = pre ++ f :: post → f.more = true →
    f.first = 0 ∨ Covered pre (f.first - 1) ∨ Covered pre (f.first + f.len)

/-- Feeding fragments of one datagram to the reassembler. Each call gets its own, arbitrary, pool: in between the other datagrams use it. -/
def feed (holes : List Hole) : List (Frag × HolePool) → Res (List Hole)
  | [] => .ok holes
  | (f, pool) :: fs => do
    let (_, holes, _) ← handleFragment holes f.first f.len f.more pool
    feed holes fs

/-- The number of items in use. -/
def held (live : List (Option Reass)) : Nat := (live.map fun r => match r with | none => 0 | some r => r.holes.length + 1).sum

/-- An IPv4 packet, header length `4 * ihl` and total length as in the header, that carries the fragment `f`. -/
def CarriesV4 (data : Packet) (f : Frag) : Prop :=
  ∃ ihl fo, ihl < 16 ∧ 5 ≤ ihl ∧ data.length = 4 * ihl + f.len ∧ 0 < f.len ∧
    (∃ b, data[0]? = some b ∧ b.toNat = 64 + ihl) ∧
    (∃ a b, data[2]? = some a ∧ data[3]? = some b ∧ 256 * a.toNat + b.toNat = data.length) ∧
    (∃ a b, data[6]? = some a ∧ data[7]? = some b ∧ 256 * a.toNat + b.toNat = (if f.more then 8192 else 0) + fo) ∧
    fo < 8192 ∧ f.first = 8 * fo

/-- An IPv6 packet whose fragment header follows the IPv6 header and that carries the fragment `f`. -/
def CarriesV6 (data : Packet) (f : Frag) : Prop :=
  data.length = 48 + f.len ∧ 0 < f.len ∧ f.len < 4294967296 ∧
    (∃ b, data[0]? = some b ∧ b.toNat / 16 = 6) ∧ data[6]? = some 44 ∧
    (∃ a b, data[42]? = some a ∧ data[43]? = some b ∧ 256 * a.toNat + b.toNat = f.first + (if f.more then 1 else 0)) ∧
    f.first % 8 = 0

/-- A packet that ends where its payload should begin: an IPv4 header of `4 * ihl` bytes, or an IPv6 header and a fragment header, and nothing else. -/
def HeadersOnly (data : Packet) : Prop :=
  (∃ b, data[0]? = some b ∧ b.toNat / 16 = 4 ∧ 5 ≤ b.toNat % 16 ∧ data.length = 4 * (b.toNat % 16)) ∨
  ((∃ b, data[0]? = some b ∧ b.toNat / 16 = 6) ∧ data[6]? = some 44 ∧ data.length = 48)

end Nfqlb.Ra
