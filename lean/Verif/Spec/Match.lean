import Verif.Model.Basic

/-! Byte-match expressions as documented in /repo/flow.md:144-157 and /repo/src/lib/match.h: `proto[x:y] & z = V`. What they are written like and what they mean. -/

namespace Nfqlb.Spec.BM

/-- The protocols. -/
inductive Proto where
  | sctp
  | tcp
  | udp
  deriving Repr, DecidableEq

def Proto.text : Proto → List Char
  | .sctp => ['s', 'c', 't', 'p']
  | .tcp => ['t', 'c', 'p']
  | .udp => ['u', 'd', 'p']

/-- Protocol numbers (IANA). -/
def Proto.num : Proto → UInt8
  | .sctp => 132
  | .tcp => 6
  | .udp => 17

/-- The length of the header without options: SCTP common header (RFC 4960), TCP (RFC 793), UDP (RFC 768). -/
def Proto.hlen : Proto → Nat
  | .sctp => 12
  | .tcp => 20
  | .udp => 8

/-- A number is written in decimal or hexadecimal. -/
inductive Num where
  | dec (ds : List Char)
  | hex (ds : List Char)
  deriving Repr, DecidableEq

def Num.text : Num → List Char
  | .dec ds => ds
  | .hex ds => '0' :: 'x' :: ds

def isHex (c : Char) : Bool := c.isDigit || ('a' ≤ c && c ≤ 'f')

def Num.WF : Num → Bool
  | .dec ds => ds ≠ [] && ds.all Char.isDigit
  | .hex ds => ds ≠ [] && ds.all isHex

/-- The value of one digit. -/
def digit (c : Char) : Nat := if c.isDigit then c.toNat - '0'.toNat else c.toNat - 'a'.toNat + 10

/-- The number written with the digits, in a base. -/
def positional (base : Nat) : List Char → Nat
  | [] => 0
  | c :: r => digit c * base ^ r.length + positional base r

def Num.value : Num → Nat
  | .dec ds => positional 10 ds
  | .hex ds => positional 16 ds

/-- A mask, with the number of spaces before and after the `&`. -/
structure Mask where
  sp1 : Nat
  sp2 : Nat
  ds : List Char
  deriving Repr, DecidableEq

/-- A match expression as written; `sp1` to `sp4` are numbers of spaces. -/
structure Expr where
  proto : Proto
  offset : List Char
  sp1 : Nat
  sp2 : Nat
  nbytes : Nat
  mask : Option Mask
  sp3 : Nat
  sp4 : Nat
  value : Num
  deriving Repr, DecidableEq

def sp (n : Nat) : List Char := List.replicate n ' '

def maskText : Option Mask → List Char
  | none => []
  | some m => sp m.sp1 ++ ['&'] ++ sp m.sp2 ++ ['0', 'x'] ++ m.ds

/-- `proto[offset:nbytes] & 0xmask = value` -/
def Expr.text (e : Expr) : List Char :=
  e.proto.text ++ ['['] ++ e.offset ++ sp e.sp1 ++ [':'] ++ sp e.sp2 ++ [Nat.digitChar e.nbytes] ++ [']'] ++ maskText e.mask ++ sp e.sp3 ++ ['='] ++ sp e.sp4 ++ e.value.text

/-- The expression follows the syntax. -/
def Expr.WF (e : Expr) : Bool :=
  e.offset ≠ [] && e.offset.all Char.isDigit && (e.nbytes = 1 || e.nbytes = 2 || e.nbytes = 4) &&
    (match e.mask with | none => true | some m => m.ds ≠ [] && m.ds.all isHex) && e.value.WF

/-- The offset that is written. -/
def Expr.off (e : Expr) : Nat := positional 10 e.offset

/-- The bytes addressed are inside the header. -/
def Expr.InHeader (e : Expr) : Prop := e.off + e.nbytes ≤ e.proto.hlen

/-- Decimal numbers have no leading zeros, all numbers fit in 32 bits, and a mask is not zero. -/
def Expr.Plain (e : Expr) : Prop :=
  (e.offset.head? = some '0' → e.offset = ['0']) ∧ e.off < 4294967296 ∧
  (∀ m, e.mask = some m → 0 < positional 16 m.ds ∧ positional 16 m.ds < 4294967296) ∧
  e.value.value < 4294967296 ∧ (∀ ds, e.value = .dec ds → ds.head? = some '0' → ds = ['0'])

/-- A big-endian number. -/
def bigEndian : List UInt8 → Nat
  | [] => 0
  | b :: r => b.toNat * 256 ^ r.length + bigEndian r

/-- The expression is true of a transport header. -/
def Expr.Holds (e : Expr) (hdr : List UInt8) : Prop :=
  (match e.mask with
    | none => bigEndian ((hdr.drop e.off).take e.nbytes)
    | some m => bigEndian ((hdr.drop e.off).take e.nbytes) &&& positional 16 m.ds) = e.value.value

instance (e : Expr) (hdr : List UInt8) : Decidable (e.Holds hdr) := by unfold Expr.Holds; infer_instance

/-- All expressions for the protocol of the packet are true (those for other protocols do not apply, /repo/src/lib/match.h:47-51). -/
def AllHold (es : List Expr) (proto : UInt8) (hdr : List UInt8) : Prop := ∀ e ∈ es, e.proto.num = proto → e.Holds hdr

instance (es : List Expr) (proto : UInt8) (hdr : List UInt8) : Decidable (AllHold es proto hdr) := by unfold AllHold; infer_instance

end Nfqlb.Spec.BM
