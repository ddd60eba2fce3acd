import Verif.Model.Start

/-! Specification for the start of `nfqlb lb` and `nfqlb flowlb`. -/

set_option autoImplicit false

namespace Nfqlb.Spec.Start

open Nfqlb

/-- The name of an interface as the kernel expects it: 16 characters, with NUL at the end. -/
def ifName (name : List Char) : List Char := name ++ List.replicate (16 - name.length) '\x00'

/-- The value of the option is the decimal text of the number. -/
def Given (vars : List Cmd.Opt) (name : String) (n : Nat) : Prop := Cmd.valueOf vars name.toList = some (Nat.toDigits 10 n) ∧ n ≤ 2147483647

/-- The options are numbers for which the memory of the pools can be counted with 32 bits: each item of a pool has 24 bytes more than what it is asked for; and the name of the device has at most 15 characters. -/
def Sized (e : Start.Env) (vars : List Cmd.Opt) : Prop :=
  (∀ name, Cmd.valueOf vars "tun".toList = some name → name.length ≤ 15) ∧
  ∃ size buckets frags mtu reass : Nat, Given vars "ft_size" size ∧ Given vars "ft_buckets" buckets ∧ Given vars "ft_frag" frags ∧ Given vars "mtu" mtu ∧ Given vars "reassembler" reass ∧
    buckets * (24 + e.sizeofBucket) < 2 ^ 32 ∧ frags * (24 + mtu) < 2 ^ 32 ∧ (size + buckets) * (24 + e.sizeofFragData) < 2 ^ 32 ∧ reass * (24 + e.sizeofHole) < 2 ^ 32

/-- The text begins with a number, as `%u` reads it, and goes on with `rest`: white space, perhaps a sign, at least one digit. The value is kept modulo 2^32; a number from 2^64 on is read as 2^64 - 1, with or without a sign. -/
def Numeral (s : List Char) (v : Nat) (rest : List Char) : Prop :=
  ∃ blanks sign ds : List Char, s = blanks ++ (sign ++ (ds ++ rest)) ∧ (∀ c ∈ blanks, c ∈ [' ', '\t', '\n', '\x0b', '\x0c', '\r']) ∧ (sign = [] ∨ sign = ['-'] ∨ sign = ['+']) ∧
    ds ≠ [] ∧ (∀ c ∈ ds, c.isDigit = true) ∧ (∀ c ∈ rest.head?, c.isDigit = false) ∧
    v = (if 2 ^ 64 ≤ Nat.ofDigitChars 10 ds 0 then 2 ^ 64 - 1 else if sign = ['-'] then 2 ^ 64 - Nat.ofDigitChars 10 ds 0 else Nat.ofDigitChars 10 ds 0) % 2 ^ 32

/-- The text is read as the range from `a` to `b`: two numbers with a colon right after the first one; anything may follow. -/
def ReadsRange (s : List Char) (a b : Nat) : Prop := ∃ t rest, Numeral s a (':' :: t) ∧ Numeral t b rest

end Nfqlb.Spec.Start
