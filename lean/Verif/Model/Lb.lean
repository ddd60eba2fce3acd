import Verif.Model.Packet
import Verif.Model.Maglev

/-! Model of the packet handler of `nfqlb lb`, /repo/src/nfqlb/cmdLb.c. -/

namespace Nfqlb

/-- The statics of /repo/src/nfqlb/cmdLb.c:21-30 that the packet handler uses: `udpEncap`, `hash_mode`, `notargets_fw`, the
target table `magd`, and, if there is an lb-tier (`slb != NULL`), its table `magdlb` and `slb->ownFwmark`. -/
structure LbConf where
  udpEncap : Nat
  hashMode : Nat
  notargets : Int
  magd : Maglev.Mag
  tier : Option (Maglev.Mag × Int)

/-- What the packet handler does with a packet: return a verdict at once; call `fragGetValueOrStore` with a key; or call
`handleFirstFragment` with a key and a fwmark. /repo/src/nfqlb/cmdLb.c:53-115. -/
inductive LbAction where
  | verdict (fw : Int)
  | later (key : Key)
  | first (key : Key) (fw : Int)
  deriving Repr, DecidableEq

/-- The lb-tier check, /repo/src/nfqlb/cmdLb.c:66-75 and /repo/src/nfqlb/cmdFlowLb.c:108-117: the fwmark of another member of
the tier, or `none` to go on here. -/
def tierRedirect (tier : Option (Maglev.Mag × Int)) (key : Key) : Res (Option Int) :=
  match tier with
  | none => .ok none
  | some (d, own) => do
    let fw ← Maglev.target d (hashKeyAddresses key)
    return (if 0 ≤ fw ∧ fw ≠ own then some fw else none)

/-- `key.id = fragid`, /repo/src/nfqlb/cmdLb.c:104 and /repo/src/nfqlb/cmdFlowLb.c:206 (an unset `fragid` would be undefined; it is set
whenever `rc & 1`). -/
def withFragid (p : Parsed) : Res Key :=
  match p.fragid with
  | some (a, b) => .ok (p.key.setId a b (0, 0) (0, 0))
  | none => .ub

/-- `packetHandleFn`, /repo/src/nfqlb/cmdLb.c:53-115, up to the calls of the fragment table. -/
def lbDecide (c : LbConf) (proto : Nat) (data : Packet) : Res LbAction := do
  let p ← getHashKey c.udpEncap proto data
  if p.rc < 0 then return .verdict (-1)
  else do
    let redirect ← if p.rc % 4 ≠ 0 then tierRedirect c.tier p.key else .ok none
    match redirect with
    | some fw => return .verdict fw
    | none =>
      if p.rc % 4 ≠ 0 ∧ p.rc % 2 = 0 then return .later p.key
      else do
        let fw ← Maglev.target c.magd (hashKey p.key c.hashMode)
        if fw < 0 then return .verdict c.notargets
        else if p.rc % 2 = 1 then do
          let k ← withFragid p
          return .first k fw
        else return .verdict fw

/-- `packetHandleFn` of `nfqlb xlb`, /repo/src/extension/cmdXlb.c:34-47; the macro `FW` tests the first slot of the
table and then uses the slot of the hash. -/
def xlbDecide (magd : Maglev.Mag) (proto : Nat) (data : Packet) : Res Int := do
  let p ← getHashKey 0 proto data
  if p.rc < 0 then return -1
  else
    match magd.lookup[0]? with
    | none => .ub
    | some l0 =>
      if l0 < 0 then return -1
      else if magd.M = 0 then .ub
      else match magd.lookup[hashKeyAddresses p.key % magd.M]? with
        | none => .ub
        | some l =>
          if l < 0 then .ub
          else match magd.active[l.toNat]? with
            | none => .ub
            | some fw => .ok fw

end Nfqlb
