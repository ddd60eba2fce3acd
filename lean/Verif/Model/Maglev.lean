import Verif.Model.Prime

/-! Model of `/repo/src/lib/maglevdyn.c` and of the `activate`/`deactivate` commands in
`/repo/src/nfqlb/cmdConfig.c` and `init` in `/repo/src/nfqlb/cmdShm.c`. -/

namespace Nfqlb.Maglev

/-- `struct MagDataDyn`, /repo/src/lib/maglevdyn.h:3-8.  The arrays that `magDataDyn_map` carves out
of the (shared) memory are lists: `lookup` has `M` elements, `perm` has `N` rows of `M` elements,
`active` has `N` elements.  (Their placement in memory is modelled separately in `Layout`.) -/
structure Mag where
  M : Nat
  N : Nat
  lookup : List Int
  perm : List (List Nat)
  active : List Int
  deriving Repr, DecidableEq

/-- The local variables of `magDataDyn_populate` together with the table being filled,
/repo/src/lib/maglevdyn.c:89-92. -/
structure PopSt where
  lookup : List Int
  next : List Nat
  n : Nat
  deriving Repr, DecidableEq

/-- Lines `c = row[next[i]]; while (d->lookup[c] >= 0) {...}`, /repo/src/lib/maglevdyn.c:97-101.
`rest` is the part of the row from index `next` on. Reading past the end of the row (or a lookup
index outside the table) is undefined behaviour.  Returns `(next[i], c)`. -/
def findFree (lookup : List Int) : List Nat → Nat → Res (Nat × Nat)
  | [], _ => .ub
  | c :: rest, next =>
    match lookup[c]? with
    | none => .ub
    | some v => if v ≥ 0 then findFree lookup rest (next + 1) else .ok (next, c)

/-- One turn of the `for (int i...)` loop body for an active target `i`,
/repo/src/lib/maglevdyn.c:96-104. -/
def place (perm : List (List Nat)) (i : Nat) (s : PopSt) : Res PopSt :=
  match perm[i]?, s.next[i]? with
  | some row, some nx =>
    match findFree s.lookup (row.drop nx) nx with
    | .ok (nx', c) =>
      .ok { lookup := s.lookup.set c (i : Int), next := s.next.set i (nx' + 1), n := s.n + 1 }
    | .die => .die
    | .ub => .ub
    | .hang => .hang
  | _, _ => .ub

/-- The inner `for` loop over the targets, /repo/src/lib/maglevdyn.c:94-106.  The flag tells that
the function has returned (`n == d->M`). -/
def pass (M : Nat) (perm : List (List Nat)) (active : List Int) : List Nat → PopSt → Res (PopSt × Bool)
  | [], s => .ok (s, false)
  | i :: is, s =>
    match active[i]? with
    | none => .ub
    | some a =>
      if a < 0 then pass M perm active is s
      else
        match place perm i s with
        | .ok s' => if s'.n = M then .ok (s', true) else pass M perm active is s'
        | .die => .die
        | .ub => .ub
        | .hang => .hang

/-- The outer `for (;;)`, /repo/src/lib/maglevdyn.c:93-107.  The first argument bounds the number of
turns; running out of it is reported as `hang`. -/
def passes (M N : Nat) (perm : List (List Nat)) (active : List Int) : Nat → PopSt → Res (List Int)
  | 0, _ => .hang
  | fuel + 1, s =>
    match pass M perm active (List.range N) s with
    | .ok (s', true) => .ok s'.lookup
    | .ok (s', false) => passes M N perm active fuel s'
    | .die => .die
    | .ub => .ub
    | .hang => .hang

/-- The counting loop for `nActive`, /repo/src/lib/maglevdyn.c:83-86. -/
def nActive (active : List Int) : Nat := (active.filter (fun a => a ≥ 0)).length

/-- The lookup table computed by `magDataDyn_populate`, /repo/src/lib/maglevdyn.c:76-108, as a function of
the dimensions, the permutations and the active array (the old lookup table is overwritten by the
first loop, lines 78-80).  `M` turns of the outer loop are allowed for. -/
def populateLookup (M N : Nat) (perm : List (List Nat)) (active : List Int) : Res (List Int) :=
  let lookup := List.replicate M (-1 : Int)
  if nActive active = 0 then .ok lookup
  else passes M N perm active M { lookup := lookup, next := List.replicate N 0, n := 0 }

/-- `magDataDyn_populate`, /repo/src/lib/maglevdyn.c:76-108. -/
def populate (d : Mag) : Res Mag :=
  match populateLookup d.M d.N d.perm d.active with
  | .ok l => .ok { d with lookup := l }
  | .die => .die
  | .ub => .ub
  | .hang => .hang

/-- A row of the permutation matrix, /repo/src/lib/maglevdyn.c:44-46; 32-bit unsigned arithmetic. -/
def permRow (M offset skip : Nat) : List Nat :=
  (List.range M).map (fun j => u32 (offset + u32 (j * skip)) % M)

/-- `rand() % m.M` and `rand() % (m.M - 1) + 1`, /repo/src/lib/maglevdyn.c:41-42.  `rnd k` is the result of
the k-th call of `rand()`, an arbitrary stream. -/
def randRow (M : Nat) (rnd : Nat → Nat) (i : Nat) : List Nat :=
  permRow M (rnd (2 * i) % M) (rnd (2 * i + 1) % (M - 1) + 1)

/-- The M used by `magDataDyn_init`, /repo/src/lib/maglevdyn.c:26-28 (and `magDataDyn_len` 17-19, and
`cmdInit` /repo/src/nfqlb/cmdShm.c:52-60). -/
def adjustM (M : Nat) : Res Nat :=
  Prime.primeBelow (if M < 3 then 3 else M)

/-- `magDataDyn_init`, /repo/src/lib/maglevdyn.c:24-51 (the memory length check is in `Layout`). -/
def init (M N : Nat) (rnd : Nat → Nat) : Res Mag :=
  match adjustM M with
  | .ok M =>
    populate
      { M := M, N := N, lookup := List.replicate M 0,
        perm := (List.range N).map (randRow M rnd), active := List.replicate N (-1) }
  | .die => .die
  | .ub => .ub
  | .hang => .hang

/-- `cmdInit`, /repo/src/nfqlb/cmdShm.c:51-64: M is adjusted, `N > M` is refused. -/
def cmdInit (M N : Nat) (rnd : Nat → Nat) : Res Mag :=
  match adjustM M with
  | .ok m => if N > m then .die else init m N rnd
  | .die => .die
  | .ub => .ub
  | .hang => .hang

/-! ### The configuration commands -/

/-- The search loop of `cmdActivate`, /repo/src/nfqlb/cmdConfig.c:55-62; returns (found, first_empty). -/
def searchActive (fw : Int) : List Int → Nat → Option Nat → Bool × Option Nat
  | [], _, fe => (false, fe)
  | a :: as, i, fe =>
    let fe := if fe = none ∧ a < 0 then some i else fe
    if a = fw then (true, fe) else searchActive fw as (i + 1) fe

/-- One turn of the `while (argc-- > 0)` loop of `cmdActivate`, /repo/src/nfqlb/cmdConfig.c:51-66.
Returns the new active array and whether it was changed. -/
def activateOne (active : List Int) (fw : Int) : List Int × Bool :=
  match searchActive fw active 0 none with
  | (false, some i) => (active.set i fw, true)
  | _ => (active, false)

/-- One turn of the `while (argc-- > 0)` loop of `cmdDeactivate`, /repo/src/nfqlb/cmdConfig.c:107-116: the first
matching slot only. -/
def deactivateOne (active : List Int) (fw : Int) : List Int × Bool :=
  match active.findIdx? (fun a => a = fw) with
  | some i => (active.set i (-1), true)
  | none => (active, false)

/-- Repeats a turn for each fwmark argument, collecting `changed`,
/repo/src/nfqlb/cmdConfig.c:51-67 and :106-116. -/
def forEach (f : List Int → Int → List Int × Bool) : List Int → List Int → Bool → List Int × Bool
  | active, [], ch => (active, ch)
  | active, fw :: fws, ch =>
    let r := f active fw
    forEach f r.1 fws (ch || r.2)

/-- A configuration command as given on the command line. /repo/src/nfqlb/cmdConfig.c:15-72 and /repo/src/nfqlb/cmdConfig.c:74-121. -/
inductive Cmd where
  /-- `activate <fwmarks...>` -/
  | activate (fws : List Int)
  /-- `activate --index=i <fwmark>` (`none`: no fwmark given) -/
  | activateAt (i : Int) (fw : Option Int)
  /-- `deactivate <fwmarks...>` -/
  | deactivate (fws : List Int)
  /-- `deactivate --index=i` -/
  | deactivateAt (i : Int)
  deriving Repr, DecidableEq

/-- Conversion of the number given for `--index` to `int` by `atoi` (truncation to 32 bit two's complement),
/repo/src/nfqlb/cmdConfig.c:39 and :96. -/
def cint (i : Int) : Int := (i + 2147483648) % 4294967296 - 2147483648

/-- The comparison `i >= magd.N` of an `int` with an `unsigned`: the `int` is converted to unsigned,
/repo/src/nfqlb/cmdConfig.c:40 and :97. -/
def indexTooLarge (i : Int) (N : Nat) : Bool := decide ((i % 4294967296).toNat ≥ N)

/-- `cmdActivate` and `cmdDeactivate`, /repo/src/nfqlb/cmdConfig.c:15-72 and :74-121, on the mapped
table. -/
def runCmd (d : Mag) : Cmd → Res Mag
  | .activate fws =>
    let r := forEach activateOne d.active fws false
    if r.2 then populate { d with active := r.1 } else .ok { d with active := r.1 }
  | .activateAt _ none => .ok d
  | .activateAt idx (some fw) =>
    let i := cint idx
    if indexTooLarge i d.N then .die
    else match d.active[i.toNat]? with
      | none => .ub
      | some a => if a ≠ fw then populate { d with active := d.active.set i.toNat fw } else .ok d
  | .deactivate fws =>
    let r := forEach deactivateOne d.active fws false
    if r.2 then populate { d with active := r.1 } else .ok { d with active := r.1 }
  | .deactivateAt idx =>
    let i := cint idx
    if indexTooLarge i d.N then .die
    else match d.active[i.toNat]? with
      | none => .ub
      | some a => if a ≥ 0 then populate { d with active := d.active.set i.toNat (-1) } else .ok d

/-- A history of separate invocations of `nfqlb activate`/`deactivate`.  A command that calls `die`
(bad index) leaves the shared memory as it was. /repo/src/nfqlb/cmdConfig.c:15-72 and /repo/src/nfqlb/cmdConfig.c:74-121. -/
def runCmds (d : Mag) : List Cmd → Res Mag
  | [] => .ok d
  | c :: cs =>
    match runCmd d c with
    | .ok d' => runCmds d' cs
    | .die => runCmds d cs
    | .ub => .ub
    | .hang => .hang

/-- What the packet handlers compute from the table,
/repo/src/nfqlb/cmdLb.c:93-97, /repo/src/nfqlb/cmdFlowLb.c:187-189 and :110-112:
`fw = lookup[hash % M]; if (fw >= 0) fw = active[fw];`.  -/
def target (d : Mag) (hash : Nat) : Res Int :=
  if d.M = 0 then .ub
  else match d.lookup[hash % d.M]? with
    | none => .ub
    | some l =>
      if l ≥ 0 then
        match d.active[l.toNat]? with
        | none => .ub
        | some fw => .ok fw
      else .ok l

end Nfqlb.Maglev
