import Verif.Spec.Flow
import Verif.Model.Addr

/-! What is expected of the C library function `getaddrinfo`, and the texts of socket addresses. -/

namespace Nfqlb.Spec.Adr

open Nfqlb Nfqlb.Spec Nfqlb.Spec.FL

/-- A port in network order. -/
def portBytes (p : Nat) : Raw16 := (UInt8.ofNat (p / 256), UInt8.ofNat (p % 256))

/-- A port in decimal. -/
def portText (p : Nat) : List Char := Nat.toDigits 10 p

/-- An address of either family. -/
inductive Host where
  | v4 (a : Addr4)
  | v6 (a : Addr6)
  deriving Repr, DecidableEq

def Host.WF : Host → Prop
  | .v4 _ => True
  | .v6 a => a.WF

instance (h : Host) : Decidable h.WF := by cases h <;> (unfold Host.WF; infer_instance)

def Host.text : Host → List Char
  | .v4 a => dotted a
  | .v6 a => a.text

/-- The socket address of a host and a port. -/
def Host.sock : Host → Nat → Addr.Sock
  | .v4 a, p => .in4 (portBytes p) a.bytes
  | .v6 a, p => .in6 (portBytes p) a.bytes [0, 0, 0, 0]

/-- The 16 bytes that stand for the host in a key: an IPv4 address as IPv4-mapped address. -/
def Host.bytes : Host → List UInt8
  | .v4 a => a.mapped
  | .v6 a => a.bytes

/-- `host:port`, with brackets around an IPv6 address (as in the help text of `nfqlb fwmark`). -/
def hostPort : Host → Nat → List Char
  | .v4 a, p => dotted a ++ [':'] ++ portText p
  | .v6 a, p => ['['] ++ a.text ++ [']', ':'] ++ portText p

/-- The names of the protocols, in small or capital letters. -/
def NamesProto (t : List Char) (p : UInt8) : Prop :=
  (p = 6 ∧ t.map Char.toLower = ['t', 'c', 'p']) ∨ (p = 17 ∧ t.map Char.toLower = ['u', 'd', 'p']) ∨ (p = 132 ∧ t.map Char.toLower = ['s', 'c', 't', 'p'])

instance (t : List Char) (p : UInt8) : Decidable (NamesProto t p) := by unfold NamesProto; infer_instance

/-- What is expected of `getaddrinfo` with AI_NUMERICHOST and AI_NUMERICSERV (POSIX): addresses in text and decimal ports are converted. A service with a letter or a bracket is no decimal port, a host with a colon or a
bracket is no IPv4 address, and the structures have their sizes. -/
structure GaiOk (gai : Addr.Gai) : Prop where
  numeric : ∀ (h : Host) (p : Nat), h.WF → p ≤ 65535 → gai h.text (portText p) = some (h.sock p)
  letter : ∀ (t s : List Char), (∃ c ∈ s, c.isAlpha = true ∨ c = '[') → gai t s = none
  noV4 : ∀ (t s : List Char) (p : Raw16) (a : List UInt8), gai t s = some (.in4 p a) → ':' ∉ t ∧ '[' ∉ t
  size4 : ∀ (t s : List Char) (p : Raw16) (a : List UInt8), gai t s = some (.in4 p a) → a.length = 4
  size6 : ∀ (t s : List Char) (p : Raw16) (a c : List UInt8), gai t s = some (.in6 p a c) → a.length = 16 ∧ c.length = 4

/-- The texts with an IPv4 address in brackets, which `nfqlb fwmark` does not handle. -/
def V4Brackets (s : List Char) : Prop := ∃ h r, s = '[' :: (h ++ ']' :: r) ∧ ']' ∉ h ∧ ':' ∉ h

/-- The number that decimal text denotes, as `strtoul` reads it: white space, a sign and digits up to the end of the text; `none` for other text. A minus sign negates modulo 2^64, and too large numbers are replaced by
the largest. -/
def strtoul (s : List Char) : Option Nat :=
  let s := s.dropWhile CText.isSpace
  let neg := s.head? == some '-'
  let s := if s.head? == some '-' || s.head? == some '+' then s.drop 1 else s
  if s = [] ∨ s.dropWhile Char.isDigit ≠ [] then none
  else
    let v := Nat.ofDigitChars 10 s 0
    some (if v > 18446744073709551615 then 18446744073709551615 else if neg then u64 (18446744073709551616 - v) else v)

/-- `getaddrinfo` of glibc, simplified: an IPv4 address only as four decimal numbers (glibc also takes the other forms of `inet_aton`), no scope, no `*`. The service is read with `strtoul` and stored in an `int`, of which
the port is the low half; an empty service is port 0. -/
def glibc : Addr.Gai := fun host service =>
  let num : Option Nat := if service = [] then some 0 else strtoul service
  match num with
  | none => none
  | some n =>
    if u32 n ≥ 2147483648 then none
    else match CText.pton4 host with
      | some a => some (.in4 (portBytes (n % 65536)) a)
      | none =>
        match CText.pton6 host with
        | some a => some (.in6 (portBytes (n % 65536)) a [0, 0, 0, 0])
        | none => none

end Nfqlb.Spec.Adr
