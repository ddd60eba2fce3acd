import Verif.Model.Basic

/-! Model of the writing of shared memory, /repo/src/lib/shmem.c:14-53. What the kernel does is a list of results of `write(2)`. -/

namespace Nfqlb.Shmem

open Nfqlb

/-- A result of `write(fd, buf, sz)`, /repo/src/lib/shmem.c:23: bytes written, interrupted or not possible now (`EINTR`, `EAGAIN`), or another error. -/
inductive Wr where
  | wrote (n : Nat)
  | again
  | error
  deriving Repr, DecidableEq

/-- `size_t` to `ssize_t`, /repo/src/lib/shmem.c:20. -/
def toSsize (n : Nat) : Int := if n % 18446744073709551616 < 9223372036854775808 then n % 18446744073709551616 else (n % 18446744073709551616 : Nat) - 18446744073709551616

/-- `ssize_t` to `int`, /repo/src/lib/shmem.c:42. -/
def toInt (n : Int) : Int := if n % 4294967296 < 2147483648 then n % 4294967296 else n % 4294967296 - 4294967296

/-- `write_full`, /repo/src/lib/shmem.c:17-36. `data` is what is at `buf`, `sz` the bytes left, `file` what is in the file. Writing more than `sz` bytes is not possible; reading behind the data is undefined. When there
are no more results, the program still waits. The value, and what is in the file. -/
def writeFull (size : Nat) : List Wr → List UInt8 → Int → List UInt8 → Res (Int × List UInt8)
  | ws, data, sz, file =>
    if sz > 0 then
      match ws with
      | [] => .hang
      | .again :: ws => writeFull size ws data sz file
      | .error :: _ => .ok (-1, file)
      | .wrote n :: ws =>
        if (n : Int) > sz then .hang
        else if n > data.length then .ub
        else writeFull size ws (data.drop n) (sz - n) (file ++ data.take n)
    else .ok (toSsize size, file)

/-- `createSharedData`, /repo/src/lib/shmem.c:38-47. `opened`: what `shm_open` returns; the file is empty then (`O_TRUNC`). The value, and what is in the file. `c != len` compares as `size_t`. -/
def createSharedData (opened : Int) (data : List UInt8) (len : Nat) (ws : List Wr) : Res (Int × List UInt8) :=
  if opened < 0 then .ok (opened, [])
  else do
    let (r, file) ← writeFull len ws data (toSsize len) []
    let c := toInt r
    if c % 18446744073709551616 ≠ (len : Int) then return (c, file)
    else return (0, file)

end Nfqlb.Shmem
