import Verif.Model.TraceSrv
import Verif.Model.Trace

/-!
What the clients that copy print: the loop of `nfqlb trace` (/repo/src/nfqlb/cmdTrace.c:70-95) and that of the list commands (/repo/src/nfqlb/cmdFlow.c:150-156 and :174-180, /repo/src/nfqlb/cmdTrace.c:231-237 and :255-261), with the
results of `write`. The kernel decides in which pieces the bytes come (at most as many as the buffer has room for), how the reading ends, and how much each `write` takes. `Verif.Model.Client` has the loop of the list commands with
a `write` that always takes everything. Simplified: what `printf` has in its buffer is written as a whole.
-/

set_option autoImplicit false

namespace Nfqlb.CopyOut

/-- What the kernel does for a client: the pieces that `read` gives, one after the other; whether the end is a signal (Ctrl-C) and not a `read` of 0 or -1; the results of `write`, by the number of the call and the number of bytes.
/repo/src/nfqlb/cmdTrace.c:88-93. -/
structure Kernel where
  pieces : List (List Char)
  signal : Bool
  write : Nat → Nat → Int

/-- The standard output and the exit code, `none` after a signal. /repo/src/nfqlb/cmdTrace.c:91 and :95. -/
structure Result where
  out : List Char
  code : Option Int
  deriving Repr, DecidableEq

/-- The bytes that a `write` has taken, of those it was given. /repo/src/nfqlb/cmdTrace.c:90. -/
def taken (r : Int) (piece : List Char) : List Char := piece.take r.toNat

/-- The loop of the list commands from the `i`-th `write` on, /repo/src/nfqlb/cmdFlow.c:152-154: the result of `write` is not used. -/
def listLoop (w : Nat → Nat → Int) (i : Nat) : List (List Char) → List Char
  | [] => []
  | p :: ps => taken (w i p.length) p ++ listLoop w (i + 1) ps

/-- `flow-list` and the like after the request, /repo/src/nfqlb/cmdFlow.c:150-156 and :174-180, /repo/src/nfqlb/cmdTrace.c:231-237 and :255-261. -/
def list (k : Kernel) : Result := ⟨listLoop k.write 0 k.pieces, if k.signal then none else some 0⟩

/-- The loop of `trace`, /repo/src/nfqlb/cmdTrace.c:88-93: `false` for `die`. -/
def traceLoop (w : Nat → Nat → Int) (i : Nat) : List (List Char) → List Char × Bool
  | [] => ([], true)
  | p :: ps =>
    if w i p.length ≠ p.length then (taken (w i p.length) p, false)
    else
      let r := traceLoop w (i + 1) ps
      (taken (w i p.length) p ++ r.1, r.2)

/-- The line with the mask, /repo/src/nfqlb/cmdTrace.c:70. -/
def maskLine (mask : Nat) : List Char := "Mask=0x".toList ++ TraceSrv.hex8 mask ++ ['\n']

/-- `nfqlb trace` from /repo/src/nfqlb/cmdTrace.c:70 on, connected. The line with the mask is printed with `printf`: on a terminal it is written at once; otherwise it stays in the buffer of `stdout` until the process exits (:95, or
:91 and /repo/src/lib/die.c:16), and is lost if a signal ends it. The rest is written with `write`. -/
def trace (tty : Bool) (mask : Nat) (k : Kernel) : Result :=
  let r := traceLoop k.write 0 k.pieces
  let early := if tty then maskLine mask else []
  let late := if tty then [] else maskLine mask
  if r.2 = false then ⟨early ++ r.1 ++ late, some 1⟩
  else if k.signal then ⟨early ++ r.1, none⟩
  else ⟨early ++ r.1 ++ late, some 0⟩

end Nfqlb.CopyOut
