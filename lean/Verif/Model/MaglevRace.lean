import Verif.Model.Maglev

/-! The individual stores made by `activate`/`deactivate` to the shared tables and the loads of a packet
handler that runs at the same time. -/

namespace Nfqlb.Maglev

/-- A shared `int`: `lookup[c]` or `active[i]`, /repo/src/lib/maglevdyn.h:3-8. -/
inductive Loc where
  | lookup (c : Nat)
  | active (i : Nat)
  deriving Repr, DecidableEq

/-- A store of one `int`. /repo/src/lib/maglevdyn.c:76-108. -/
abbrev Store := Loc × Int

/-- The effect of a store on the shared tables. /repo/src/lib/maglevdyn.c:76-108. -/
def applyStore (d : Mag) : Store → Mag
  | (.lookup c, v) => { d with lookup := d.lookup.set c v }
  | (.active i, v) => { d with active := d.active.set i v }

/-- The effect of stores performed in order. /repo/src/lib/maglevdyn.c:76-108. -/
def applyStores (d : Mag) (ss : List Store) : Mag := ss.foldl applyStore d

/-- As `place`, with the store made: `d->lookup[c] = i`, /repo/src/lib/maglevdyn.c:96-104. -/
def placeLog (perm : List (List Nat)) (i : Nat) (s : PopSt) : Res (PopSt × Store) :=
  match perm[i]?, s.next[i]? with
  | some row, some nx =>
    match findFree s.lookup (row.drop nx) nx with
    | .ok (nx', c) =>
      .ok ({ lookup := s.lookup.set c (i : Int), next := s.next.set i (nx' + 1), n := s.n + 1 },
           (.lookup c, (i : Int)))
    | .die => .die
    | .ub => .ub
    | .hang => .hang
  | _, _ => .ub

/-- As `pass`, with the stores made, /repo/src/lib/maglevdyn.c:94-106. -/
def passLog (M : Nat) (perm : List (List Nat)) (active : List Int) :
    List Nat → PopSt → Res (PopSt × Bool × List Store)
  | [], s => .ok (s, false, [])
  | i :: is, s =>
    match active[i]? with
    | none => .ub
    | some a =>
      if a < 0 then passLog M perm active is s
      else
        match placeLog perm i s with
        | .ok (s', st) =>
          if s'.n = M then .ok (s', true, [st])
          else
            match passLog M perm active is s' with
            | .ok (s'', f, log) => .ok (s'', f, st :: log)
            | .die => .die
            | .ub => .ub
            | .hang => .hang
        | .die => .die
        | .ub => .ub
        | .hang => .hang

/-- As `passes`, with the stores made, /repo/src/lib/maglevdyn.c:93-107. -/
def passesLog (M N : Nat) (perm : List (List Nat)) (active : List Int) : Nat → PopSt → Res (List Store)
  | 0, _ => .hang
  | fuel + 1, s =>
    match passLog M perm active (List.range N) s with
    | .ok (_, true, log) => .ok log
    | .ok (s', false, log) =>
      match passesLog M N perm active fuel s' with
      | .ok log' => .ok (log ++ log')
      | .die => .die
      | .ub => .ub
      | .hang => .hang
    | .die => .die
    | .ub => .ub
    | .hang => .hang

/-- All stores of `magDataDyn_populate`, /repo/src/lib/maglevdyn.c:76-108, in program order. -/
def populateStores (M N : Nat) (perm : List (List Nat)) (active : List Int) : Res (List Store) :=
  let clear : List Store := (List.range M).map (fun c => (.lookup c, -1))
  if nActive active = 0 then .ok clear
  else
    match passesLog M N perm active M
      { lookup := List.replicate M (-1), next := List.replicate N 0, n := 0 } with
    | .ok log => .ok (clear ++ log)
    | .die => .die
    | .ub => .ub
    | .hang => .hang

/-- The stores to `active` made by `activate <fwmarks...>`, /repo/src/nfqlb/cmdConfig.c:51-67. -/
def activateStores : List Int → List Int → List Store
  | _, [] => []
  | a, fw :: fws =>
    match searchActive fw a 0 none with
    | (false, some i) => (.active i, fw) :: activateStores (a.set i fw) fws
    | _ => activateStores a fws

/-- The stores to `active` made by `deactivate <fwmarks...>`, /repo/src/nfqlb/cmdConfig.c:107-116. -/
def deactivateStores : List Int → List Int → List Store
  | _, [] => []
  | a, fw :: fws =>
    match a.findIdx? (fun x => x = fw) with
    | some i => (.active i, -1) :: deactivateStores (a.set i (-1)) fws
    | none => deactivateStores a fws

/-- Stores to `active` followed, if there were any, by those of `magDataDyn_populate`,
/repo/src/nfqlb/cmdConfig.c:68-69 and :117-118. -/
def thenPopulate (d : Mag) (ss : List Store) : Res (List Store) :=
  match ss with
  | [] => .ok []
  | _ :: _ =>
    match populateStores d.M d.N d.perm (applyStores d ss).active with
    | .ok log => .ok (ss ++ log)
    | .die => .die
    | .ub => .ub
    | .hang => .hang

/-- All stores to shared memory made by a command, /repo/src/nfqlb/cmdConfig.c:15-72 and :74-121. -/
def cmdStores (d : Mag) : Cmd → Res (List Store)
  | .activate fws => thenPopulate d (activateStores d.active fws)
  | .activateAt _ none => .ok []
  | .activateAt idx (some fw) =>
    let i := cint idx
    if indexTooLarge i d.N then .ok []
    else match d.active[i.toNat]? with
      | none => .ub
      | some a => if a ≠ fw then thenPopulate d [(.active i.toNat, fw)] else .ok []
  | .deactivate fws => thenPopulate d (deactivateStores d.active fws)
  | .deactivateAt idx =>
    let i := cint idx
    if indexTooLarge i d.N then .ok []
    else match d.active[i.toNat]? with
      | none => .ub
      | some a => if a ≥ 0 then thenPopulate d [(.active i.toNat, -1)] else .ok []

/-- All stores made by a history of commands, one after the other. /repo/src/nfqlb/cmdConfig.c:15-72 and /repo/src/nfqlb/cmdConfig.c:74-121. -/
def historyStores (d : Mag) : List Cmd → Res (List Store)
  | [] => .ok []
  | c :: cs =>
    match cmdStores d c with
    | .ok ss =>
      match historyStores (applyStores d ss) cs with
      | .ok ss' => .ok (ss ++ ss')
      | .die => .die
      | .ub => .ub
      | .hang => .hang
    | .die => .die
    | .ub => .ub
    | .hang => .hang

/-- The two loads of the handlers of `lb` and `flowlb`, /repo/src/nfqlb/cmdLb.c:93-95,
/repo/src/nfqlb/cmdFlowLb.c:110-112 and :187-189: `lookup` is read after `t1` of the stores `ss` have been
performed, `active` after `t2` of them. -/
def raceTarget (d : Mag) (ss : List Store) (t1 t2 : Nat) (hash : Nat) : Res Int :=
  if d.M = 0 then .ub
  else match (applyStores d (ss.take t1)).lookup[hash % d.M]? with
    | none => .ub
    | some l =>
      if l ≥ 0 then
        match (applyStores d (ss.take t2)).active[l.toNat]? with
        | none => .ub
        | some fw => .ok fw
      else .ok l

/-- The three loads of the `FW` macro of `xlb`, /repo/src/extension/cmdXlb.c:34 and :46. A negative index is
outside the array. -/
def raceTargetXlb (d : Mag) (ss : List Store) (t1 t2 t3 : Nat) (hash : Nat) : Res Int :=
  match (applyStores d (ss.take t1)).lookup[0]? with
  | none => .ub
  | some l0 =>
    if l0 < 0 then .ok (-1)
    else if d.M = 0 then .ub
    else match (applyStores d (ss.take t2)).lookup[hash % d.M]? with
      | none => .ub
      | some l =>
        if l < 0 then .ub
        else match (applyStores d (ss.take t3)).active[l.toNat]? with
          | none => .ub
          | some fw => .ok fw

end Nfqlb.Maglev
