import Verif.Model.FragTable

/-! Model of `fragTableDestroy`, /repo/src/lib/fragutils.c:224-251, for calls that do not overlap with others. Simplified: memory that is freed is not modelled; the result is the table as it is when the pools are
freed. That `ctDestroy` and `itemPoolDestroy` free what they were given is C21 and C26. -/

set_option autoImplicit false

namespace Nfqlb.Frag

/-- `MAXTIME`, /repo/src/lib/fragutils.c:227, with a `time_t` of 64 bits. -/
def maxTime : Int := ((1 : Int) * 2 ^ (8 * 8 - 2) - 1) * 2 + 1

/-- Is it a value of `long`. The type of the expression in /repo/src/lib/conntrack.c:61. -/
def isLong (x : Int) : Bool := decide (-(2 ^ 63) ≤ x) && decide (x < 2 ^ 63)

/-- `toNanos`, /repo/src/lib/conntrack.c:59-62. The multiplication and the addition are signed: overflow is undefined, unless the compiler is told to wrap (`wrap`). The result is converted to 64 bits without sign. -/
def toNanos (wrap : Bool) (sec nsec : Int) : Res Nat :=
  if wrap || (isLong (sec * 1000000000) && isLong (sec * 1000000000 + nsec)) then .ok ((sec * 1000000000 + nsec) % 2 ^ 64).toNat else .ub

/-- The assertions with `SANITY_CHECK`, /repo/src/lib/fragutils.c:236-245: no entry, and all items of the pools (with `objs`, `frags` and `bkts` items) are free. -/
def allFree (ft : Ft) (objs frags bkts : Nat) : Bool :=
  decide (ft.ct.stats.active = 0) && decide (ft.freeObjs.length = objs) && decide (ft.fragsFree = frags) && decide (ft.bucketsFree = bkts)

/-- `fragTableDestroy`, /repo/src/lib/fragutils.c:229-251, compiled with `SANITY_CHECK` if `check`. `nsec` is what happens to be in `now.tv_nsec`, which is not initialised (:231-232). A failed assertion ends the process. -/
def fragTableDestroy (wrap check : Bool) (objs frags bkts : Nat) (nsec : Int) (ft : Ft) : Res Ft := do
  let now ← toNanos wrap maxTime nsec
  let ft := fragGetStats ft now
  if check && !allFree ft objs frags bkts then .die
  else .ok (onEvents ft (Ct.destroy ft.ct))

end Nfqlb.Frag
