import Verif.Model.Basic

/-! The C library functions on text that the modelled code uses. Strings are lists of characters without the terminating NUL. These follow the C standard and glibc; no code in /repo is
modelled here except the uses that are cited. -/

namespace Nfqlb.CText

/-- `isspace` in the C locale, as used when `sscanf` skips white space (/repo/src/lib/rangeset.c:117 and :122, /repo/src/lib/flow.c:177). -/
def isSpace (c : Char) : Bool := c == ' ' || c == '\t' || c == '\n' || c == '\x0b' || c == '\x0c' || c == '\r'

/-- The conversion `%u` of `sscanf` (/repo/src/lib/rangeset.c:117 and :122): skips white space, takes an optional sign and decimal digits. glibc converts with `strtoul`, which stops at
2^64-1, negates the value if there is a minus sign, and stores the low 32 bits. `none`: matching failure. Otherwise the value and the rest of the input. -/
def scanU (s : List Char) : Option (Nat × List Char) :=
  let s := s.dropWhile isSpace
  let neg := s.head? == some '-'
  let s := if s.head? == some '-' || s.head? == some '+' then s.drop 1 else s
  let ds := s.takeWhile Char.isDigit
  if ds = [] then none
  else
    let v := Nat.ofDigitChars 10 ds 0
    let v := if v > 18446744073709551615 then 18446744073709551615 else if neg then u64 (18446744073709551616 - v) else v
    some (u32 v, s.dropWhile Char.isDigit)

/-- All the tokens that repeated calls of `strtok(str, seps)` give (/repo/src/lib/rangeset.c:133-137): the maximal runs of characters that are not separators. `cur` is the token being read,
in reverse. -/
def tokensAux (seps : List Char) : List Char → List Char → List (List Char)
  | cur, [] => if cur = [] then [] else [cur.reverse]
  | cur, c :: s => if c ∈ seps then (if cur = [] then tokensAux seps [] s else cur.reverse :: tokensAux seps [] s) else tokensAux seps (c :: cur) s

/-- `strtok` in a loop (/repo/src/lib/rangeset.c:133-138). -/
def tokens (seps : List Char) (s : List Char) : List (List Char) := tokensAux seps [] s

/-- The conversion `%u` of `snprintf` (/repo/src/lib/rangeset.c:275 and :277). -/
def dec (n : Nat) : List Char := Nat.toDigits 10 n

/-- The value of a digit, 99 for other characters. For `strtol`, as used in /repo/src/lib/match.c:87-102. -/
def digitVal (c : Char) : Nat :=
  if '0' ≤ c ∧ c ≤ '9' then c.toNat - 48
  else if 'a' ≤ c ∧ c ≤ 'f' then c.toNat - 87
  else if 'A' ≤ c ∧ c ≤ 'F' then c.toNat - 55
  else 99

/-- The number that digits denote in a base. For `strtol`, called in /repo/src/ipu/ipu.c:75, and `sscanf` in /repo/src/lib/rangeset.c:117. -/
def number (base : Nat) (ds : List Char) : Nat := ds.foldl (fun n c => n * base + digitVal c) 0

/-- The base and the rest of the text for `strtol` with base 0: `0x` followed by a hexadecimal digit, otherwise `0`, otherwise decimal (/repo/src/lib/match.c:87-102). -/
def basePrefix (s : List Char) : Nat × List Char :=
  match s with
  | '0' :: x :: d :: r => if (x = 'x' ∨ x = 'X') ∧ digitVal d < 16 then (16, d :: r) else (8, s)
  | '0' :: _ => (8, s)
  | _ => (10, s)

/-- `strtol(s, &eptr, 0)` with a 64-bit `long` (/repo/src/lib/match.c:87, :89, :99 and :102), converted to `unsigned`: the value and the text from `eptr` on. Values that do not fit are replaced by
the largest (or least) `long`. -/
def strtol0 (s : List Char) : Nat × List Char :=
  let t := s.dropWhile isSpace
  let neg := t.head? == some '-'
  let t := if t.head? == some '-' || t.head? == some '+' then t.drop 1 else t
  let b := basePrefix t
  let ds := b.2.takeWhile (fun c => digitVal c < b.1)
  if ds = [] then (0, s)
  else
    let v := number b.1 ds
    let v := if neg then u64 (18446744073709551616 - (if v > 9223372036854775808 then 9223372036854775808 else v))
      else (if v > 9223372036854775807 then 9223372036854775807 else v)
    (u32 v, b.2.dropWhile (fun c => digitVal c < b.1))

/-- `strchr(s, c)` (/repo/src/lib/match.c:86, :88, :97 and :101): the text from the first `c` on, `none` for NULL. -/
def strchr (c : Char) (s : List Char) : Option (List Char) :=
  match s.dropWhile (fun x => x != c) with
  | [] => none
  | r => some r

/-- The conversion `%x` of `snprintf` (/repo/src/lib/match.c:284 and :289). -/
def hex (n : Nat) : List Char := Nat.toDigits 16 n

/-- One digit of a number in `inet_pton` for IPv4: the value so far and whether a digit was seen. No leading zeros, at most 255. A function of the C library, called in /repo/src/lib/flow.c:183, /repo/src/ipu/ipu.c:109 and :140. -/
def octetStep (st : Nat × Bool) (c : Char) : Option (Nat × Bool) :=
  if st.2 = true ∧ st.1 = 0 then none
  else
    let new := st.1 * 10 + (c.toNat - 48)
    if new > 255 then none else some (new, true)

/-- The loop of `inet_pton` for IPv4 (glibc `inet_pton4`): the octets finished, and the current one. A function of the C library, called in /repo/src/lib/flow.c:183, /repo/src/ipu/ipu.c:109 and :140. -/
def pton4Loop : List Char → List UInt8 → Nat × Bool → Option (List UInt8)
  | [], done, st => if st.2 = true ∧ done.length = 3 then some (done ++ [UInt8.ofNat st.1]) else none
  | c :: s, done, st =>
    if c.isDigit then
      match octetStep st c with
      | some st => pton4Loop s done st
      | none => none
    else if c = '.' ∧ st.2 = true then
      if done.length = 3 then none else pton4Loop s (done ++ [UInt8.ofNat st.1]) (0, false)
    else none

/-- `inet_pton` for IPv4, as used inside an IPv6 address (/repo/src/lib/flow.c:183). -/
def pton4 (s : List Char) : Option (List UInt8) := pton4Loop s [] (0, false)

/-- What the loop of `inet_pton` for IPv6 has: the bytes stored, where `::` was, how many hexadecimal digits since the last colon, and their value. A function of the C library, called in /repo/src/lib/flow.c:183, /repo/src/ipu/ipu.c:109 and :140. -/
structure Pton6 where
  tp : List UInt8
  colonp : Option Nat
  xd : Nat
  val : Nat
  deriving Repr, DecidableEq

/-- Storing a 16-bit group. A function of the C library, called in /repo/src/lib/flow.c:183, /repo/src/ipu/ipu.c:109 and :140. -/
def Pton6.flush (st : Pton6) : Pton6 := { st with tp := st.tp ++ [UInt8.ofNat (st.val / 256), UInt8.ofNat st.val], xd := 0, val := 0 }

/-- The loop of `inet_pton` for IPv6 (glibc `inet_pton6`); `cur` is the text after the last colon. A function of the C library, called in /repo/src/lib/flow.c:183, /repo/src/ipu/ipu.c:109 and :140. -/
def pton6Loop : List Char → List Char → Pton6 → Option Pton6
  | [], _, st => some st
  | c :: s, cur, st =>
    if digitVal c < 16 then
      if st.xd = 4 then none else pton6Loop s cur { st with xd := st.xd + 1, val := st.val * 16 + digitVal c }
    else if c = ':' then
      if st.xd = 0 then
        if st.colonp.isSome then none else pton6Loop s s { st with colonp := some st.tp.length }
      else if s = [] then none
      else if st.tp.length + 2 > 16 then none
      else pton6Loop s s st.flush
    else if c = '.' ∧ st.tp.length + 4 ≤ 16 then
      match pton4 cur with
      | some b => some { st with tp := st.tp ++ b, xd := 0, val := 0 }
      | none => none
    else none

/-- The end of `inet_pton` for IPv6: the last group, and `::` replaced by zeros. A function of the C library, called in /repo/src/lib/flow.c:183, /repo/src/ipu/ipu.c:109 and :140. -/
def pton6End (st : Pton6) : Option (List UInt8) :=
  if st.xd > 0 ∧ st.tp.length + 2 > 16 then none
  else
    let st := if st.xd > 0 then st.flush else st
    match st.colonp with
    | some n => if st.tp.length = 16 then none else some (st.tp.take n ++ List.replicate (16 - st.tp.length) 0 ++ st.tp.drop n)
    | none => if st.tp.length = 16 then some st.tp else none

/-- `inet_pton(AF_INET6, s, …)` (/repo/src/lib/flow.c:183), as in glibc: the 16 bytes, or `none` if it does not return 1. -/
def pton6 (s : List Char) : Option (List UInt8) :=
  match s with
  | [] => none
  | ':' :: r =>
    match r with
    | ':' :: _ => (pton6Loop r r ⟨[], none, 0, 0⟩).bind pton6End
    | _ => none
  | s => (pton6Loop s s ⟨[], none, 0, 0⟩).bind pton6End

/-- `tolower` in the C locale, as `strcasecmp` (/repo/src/lib/flow.c:120-124) uses it. -/
def lower (c : Char) : Char := if 'A' ≤ c ∧ c ≤ 'Z' then Char.ofNat (c.toNat + 32) else c

/-- `strcasecmp(a, b) == 0` (/repo/src/lib/flow.c:120-124). -/
def caseEq (a b : List Char) : Bool := a.map lower == b.map lower

end Nfqlb.CText
