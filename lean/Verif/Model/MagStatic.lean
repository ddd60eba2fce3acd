import Verif.Model.Maglev

/-! Model of `/repo/src/lib/maglev.c` and `/repo/src/lib/maglev.h`: the Maglev tables in arrays of fixed size.
`MAX_M` and `MAX_N` are 10000 and 100 unless they are defined otherwise (/repo/src/lib/maglev.h:3-6), so they are parameters
here. -/

namespace Nfqlb.MagStatic

/-- `struct MagData`, /repo/src/lib/maglev.h:8-13: the arrays are lists of the lengths `MAX_M`, `MAX_N` times `MAX_M` and `MAX_N`. -/
structure MagS where
  M : Nat
  N : Nat
  lookup : List Int
  perm : List (List Nat)
  active : List Nat
  deriving Repr, DecidableEq

/-- The default of `MAX_M`, /repo/src/lib/maglev.h:4. -/
def MAX_M : Nat := 10000

/-- The default of `MAX_N`, /repo/src/lib/maglev.h:5. -/
def MAX_N : Nat := 100

/-- The loop over `j`, /repo/src/lib/maglev.c:14-16; 32-bit unsigned arithmetic; a store outside of the row is undefined
behaviour. -/
def fillRow (M offset skip : Nat) : List Nat → List Nat → Res (List Nat)
  | [], row => .ok row
  | j :: js, row =>
    if j < row.length then fillRow M offset skip js (row.set j (u32 (offset + u32 (j * skip)) % M))
    else .ub

/-- The loop over `i`, /repo/src/lib/maglev.c:10-17.  `rnd k` is the result of the k-th call of `rand()`.  `rand() % d->M` and
`rand() % (d->M - 1)` divide by zero for `M` 0 and 1. -/
def fillRows (M : Nat) (rnd : Nat → Nat) : List Nat → List (List Nat) → Res (List (List Nat))
  | [], perm => .ok perm
  | i :: is, perm =>
    if M = 0 ∨ M - 1 = 0 then .ub
    else match perm[i]? with
      | none => .ub
      | some row =>
        match fillRow M (rnd (2 * i) % M) (rnd (2 * i + 1) % (M - 1) + 1) (List.range M) row with
        | .ok row' => fillRows M rnd is (perm.set i row')
        | .die => .die
        | .ub => .ub
        | .hang => .hang

/-- `initMagData`, /repo/src/lib/maglev.c:5-18. -/
def initMagData (MM NN m n : Nat) (rnd : Nat → Nat) : Res MagS :=
  match fillRows m rnd (List.range n) (List.replicate NN (List.replicate MM 0)) with
  | .ok perm =>
    .ok { M := m, N := n, lookup := List.replicate MM 0, perm := perm, active := List.replicate NN 0 }
  | .die => .die
  | .ub => .ub
  | .hang => .hang

/-- The first loop of `populate`, /repo/src/lib/maglev.c:22-24. -/
def clear : List Nat → List Int → Res (List Int)
  | [], l => .ok l
  | i :: is, l => if i < l.length then clear is (l.set i (-1)) else .ub

/-- The loop that counts the active targets, /repo/src/lib/maglev.c:27-30. -/
def count (active : List Nat) : List Nat → Nat → Res Nat
  | [], n => .ok n
  | i :: is, n =>
    match active[i]? with
    | none => .ub
    | some a => count active is (if a ≠ 0 then n + 1 else n)

/-- The table being filled and the local variables `next` (of `MAX_N` elements) and `n`,
/repo/src/lib/maglev.c:33-35. -/
structure St where
  lookup : List Int
  next : List Nat
  n : Nat
  deriving Repr, DecidableEq

/-- `c = d->permutation[i][next[i]]; while (d->lookup[c] >= 0) ...`, /repo/src/lib/maglev.c:39-43.  `rest` is the row from
`next[i]` on; reading past its end, or `lookup` past its end, is undefined behaviour.  Returns `(next[i], c)`. -/
def search (lookup : List Int) : List Nat → Nat → Res (Nat × Nat)
  | [], _ => .ub
  | c :: rest, next =>
    match lookup[c]? with
    | none => .ub
    | some v => if v ≥ 0 then search lookup rest (next + 1) else .ok (next, c)

/-- One turn for an active target, /repo/src/lib/maglev.c:39-46. -/
def turn (perm : List (List Nat)) (i : Nat) (s : St) : Res St :=
  match perm[i]?, s.next[i]? with
  | some row, some nx =>
    match search s.lookup (row.drop nx) nx with
    | .ok (nx', c) =>
      .ok { lookup := s.lookup.set c (i : Int), next := s.next.set i (nx' + 1), n := s.n + 1 }
    | .die => .die
    | .ub => .ub
    | .hang => .hang
  | _, _ => .ub

/-- The loop over the targets, /repo/src/lib/maglev.c:37-48.  The flag tells that `n == d->M` was reached. -/
def round (M : Nat) (perm : List (List Nat)) (active : List Nat) : List Nat → St → Res (St × Bool)
  | [], s => .ok (s, false)
  | i :: is, s =>
    match active[i]? with
    | none => .ub
    | some a =>
      if a = 0 then round M perm active is s
      else
        match turn perm i s with
        | .ok s' => if s'.n = M then .ok (s', true) else round M perm active is s'
        | .die => .die
        | .ub => .ub
        | .hang => .hang

/-- The endless loop, /repo/src/lib/maglev.c:36-49.  The first argument bounds the number of turns; running out of it is
reported as `hang`. -/
def rounds (M N : Nat) (perm : List (List Nat)) (active : List Nat) : Nat → St → Res (List Int)
  | 0, _ => .hang
  | fuel + 1, s =>
    match round M perm active (List.range N) s with
    | .ok (s', true) => .ok s'.lookup
    | .ok (s', false) => rounds M N perm active fuel s'
    | .die => .die
    | .ub => .ub
    | .hang => .hang

/-- The table that `populate` leaves, /repo/src/lib/maglev.c:20-50.  `M` turns of the endless loop are allowed for. -/
def table (NN : Nat) (d : MagS) : Res (List Int) :=
  match clear (List.range d.M) d.lookup with
  | .ok l =>
    match count d.active (List.range d.N) 0 with
    | .ok k =>
      if k = 0 then .ok l
      else rounds d.M d.N d.perm d.active d.M { lookup := l, next := List.replicate NN 0, n := 0 }
    | .die => .die
    | .ub => .ub
    | .hang => .hang
  | .die => .die
  | .ub => .ub
  | .hang => .hang

/-- `populate`, /repo/src/lib/maglev.c:20-50. -/
def populate (NN : Nat) (d : MagS) : Res MagS :=
  match table NN d with
  | .ok l => .ok { d with lookup := l }
  | .die => .die
  | .ub => .ub
  | .hang => .hang

end Nfqlb.MagStatic
