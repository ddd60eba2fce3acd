/-!
Common notions of the model of nfqueue-loadbalancer.

C integers are modelled by `Nat`/`Int`; where the C code computes in 32- or
64-bit unsigned arithmetic and the result may wrap, the wrap is written with
`u32`/`u64`.
-/

namespace Nfqlb

/-- Reduction of a value to `unsigned` (32 bit).  Models C's unsigned wrap-around (LP64 target). E.g. /repo/src/lib/itempool.c:47. -/
def u32 (x : Nat) : Nat := x % 4294967296

/-- Reduction of a value to `uint64_t`. Models C's unsigned wrap-around. E.g. /repo/src/lib/conntrack.c:59-62. -/
def u64 (x : Nat) : Nat := x % 18446744073709551616

/-- How a modelled C function can end.
* `ok a`  it returns `a`;
* `die`   it calls `die()` (`/repo/src/lib/die.c`), i.e. prints a message and exits;
* `ub`    undefined behaviour: out-of-bounds access, null or dangling pointer, division by zero;
* `hang`  it never returns. -/
inductive Res (α : Type u) where
  | ok (a : α)
  | die
  | ub
  | hang
  deriving Repr, DecidableEq

namespace Res

/-- Sequencing of modelled statements: anything but a normal return ends the computation. `die` ends the program, /repo/src/lib/die.h:7. -/
def bind {α : Type u} {β : Type v} (r : Res α) (f : α → Res β) : Res β :=
  match r with
  | ok a => f a
  | die => die
  | ub => ub
  | hang => hang

instance : Monad Res where
  pure := ok
  bind := bind

@[simp] theorem pure_eq {α : Type u} (a : α) : (pure a : Res α) = ok a := rfl
@[simp] theorem ok_bind {α β : Type u} (a : α) (f : α → Res β) : ((ok a : Res α) >>= f) = f a := rfl
@[simp] theorem die_bind {α β : Type u} (f : α → Res β) : ((die : Res α) >>= f) = die := rfl
@[simp] theorem ub_bind {α β : Type u} (f : α → Res β) : ((ub : Res α) >>= f) = ub := rfl
@[simp] theorem hang_bind {α β : Type u} (f : α → Res β) : ((hang : Res α) >>= f) = hang := rfl

/-- The computation is undefined. Not code: used to state properties. -/
def isUb {α : Type u} : Res α → Bool
  | ub => true
  | _ => false

/-- The computation never ends. Not code: used to state properties. -/
def isHang {α : Type u} : Res α → Bool
  | hang => true
  | _ => false

end Res

end Nfqlb
