import Verif.Model.Server

/-! Model of tracing in `nfqlb flowlb`: `packetHandleFn` with the lines that it writes, /repo/src/nfqlb/cmdFlowLb.c:93-231, `printIcmp`, /repo/src/lib/iputils.c:380-462, and the selection of what is traced,
/repo/src/nfqlb/cmdTrace.c:13-73. There is a connection for the trace (`tracefile`), so that all text is written. -/

namespace Nfqlb.Trace

open Nfqlb Nfqlb.FlowLb

/-! ### printIcmp -/

/-- `%u` of two numbers with texts before them, as in /repo/src/lib/iputils.c:403-408. -/
def two (a : String) (x : Nat) (b : String) (y : Nat) : List Char := a.toList ++ CText.dec x ++ b.toList ++ CText.dec y ++ ['\n']

/-- `printIcmp4`, /repo/src/lib/iputils.c:380-411: the text. There is no test whether the ICMP header is in the packet. -/
def printIcmp4 (data : Packet) : Res (List Char) :=
  if !inBounds 0 20 data.length then .ok []
  else do
    let b0 ← rd data 0
    if b0.toNat % 16 < 5 then .ok []
    else do
      let proto ← rd data 9
      if proto ≠ 1 then .ok []
      else do
        let ih := 4 * (b0.toNat % 16)
        let t ← rd data ih
        if t = 3 then do
          let code ← rd data (ih + 1)
          if code = 4 then do
            let mtu ← rd16 data (ih + 6)
            return "ICMP_DEST_UNREACH/FRAG_NEEDED: mtu=".toList ++ CText.dec (ntohs mtu) ++ ['\n']
          else return "ICMP_DEST_UNREACH: code=".toList ++ CText.dec code.toNat ++ ['\n']
        else if t = 8 then do
          let id ← rd16 data (ih + 4)
          let seq ← rd16 data (ih + 6)
          return two "ICMP_ECHO: id=" (ntohs id) ", seq=" (ntohs seq)
        else do
          let code ← rd data (ih + 1)
          return two "ICMP " t.toNat ", " code.toNat

/-- `printIcmp6`, /repo/src/lib/iputils.c:412-446. The loop is the one of `walkExt`, with `return` for `return -1`. There is no test whether the ICMP header is in the packet. -/
def printIcmp6 (data : Packet) : Res (List Char) :=
  if !inBounds 0 40 data.length then .ok []
  else do
    let nxt ← rd data 6
    match ← walkExt false data (turns data) nxt 40 with
    | none => .ok []
    | some (htype, hdr) =>
      if htype ≠ 58 then .ok []
      else do
        let t ← rd data hdr
        if t = 2 then do
          let a ← rd16 data (hdr + 4)
          let b ← rd16 data (hdr + 6)
          return "ICMP6_PACKET_TOO_BIG: mtu=".toList ++ CText.dec (ntohs a * 65536 + ntohs b) ++ ['\n']
        else if t = 128 then do
          let id ← rd16 data (hdr + 4)
          let seq ← rd16 data (hdr + 6)
          return two "ICMP6_ECHO_REQUEST: id=" (ntohs id) ", seq=" (ntohs seq)
        else do
          let code ← rd data (hdr + 1)
          return two "ICMP6 " t.toNat ", " code.toNat

/-- `printIcmp`, /repo/src/lib/iputils.c:448-462. -/
def printIcmp (proto : Nat) (data : Packet) : Res (List Char) :=
  if proto = 0x0800 then printIcmp4 data
  else if proto = 0x86dd then printIcmp6 data
  else .ok []

/-! ### packetHandleFn -/

/-- `logconfig->tracemask` (/repo/src/lib/log.h:13), `trace_fset` (/repo/src/nfqlb/cmdFlowLb.c:74) and the names of trace flows, by pointer. -/
structure Tr where
  mask : Nat
  set : Flow.FlowSet
  names : Nat → Option (List Char)

/-- `(logconfig->tracemask & m) != 0`, /repo/src/lib/log.h:42; `m` is 2^`bit`. The bits are in /repo/src/nfqlb/nfqlb.h:95-100: packet 1, frag 2, sctp 4, flows 6. -/
def Tr.on (tr : Tr) (bit : Nat) : Bool := tr.mask.testBit bit

/-- `trace(m, text)`, /repo/src/lib/log.h:43. -/
def Tr.line (tr : Tr) (bit : Nat) (text : List Char) : List Char := if tr.on bit = true then text else []

/-- `protostr`, /repo/src/lib/iputils.c:512-527. -/
def protostr (p : Nat) : List Char :=
  if p = 6 then "tcp".toList else if p = 17 then "udp".toList else if p = 132 then "sctp".toList else if p = 1 then "icmp".toList else if p = 58 then "icmp6".toList else CText.dec p

/-- `%d`, as in /repo/src/nfqlb/cmdFlowLb.c:114. -/
def decInt (i : Int) : List Char := if i < 0 then '-' :: CText.dec (-i).toNat else CText.dec i.toNat

/-- The lookup of a trace flow, /repo/src/nfqlb/cmdFlowLb.c:138-140: NULL is 0. -/
def traceFind (tr : Tr) (key : Key) (proto : Nat) (data : Packet) : Res Nat :=
  if tr.on 6 = true then do
    let r ← Flow.flowLookup tr.set key proto data 0
    return r.1
  else .ok 0

/-- The text for a trace flow that was found, /repo/src/nfqlb/cmdFlowLb.c:141-156. The name is read after the lock of the set is released: undefined if it is not allocated any more. -/
def traceMatch (tr : Tr) (tflow : Nat) (key : Key) (proto : Nat) (data : Packet) (udpencap : Nat) : Res (List Char) :=
  if tflow = 0 then .ok []
  else
    match tr.names tflow with
    | none => .ub
    | some name => do
      let icmp ← printIcmp proto data
      return "\nMatch for trace-flow: ".toList ++ name ++ ['\n'] ++ icmp ++
        "proto=".toList ++ protostr (Flow.protoNum key) ++ ", len=".toList ++ CText.dec data.length ++ ", ".toList ++ CText.ntop6 key.src ++ [' '] ++ CText.dec (ntohs key.sport) ++
        " -> ".toList ++ CText.ntop6 key.dst ++ [' '] ++ CText.dec (ntohs key.dport) ++ ['\n'] ++
        (if Flow.protoNum key = 17 ∧ udpencap ≠ 0 then "udpencap=".toList ++ CText.dec udpencap ++ ['\n'] else [])

/-- The text for packets without load-balancer, /repo/src/nfqlb/cmdFlowLb.c:178-181. -/
def noLb (tr : Tr) (conf : Conf) (tflow : Nat) : List Char :=
  tr.line 1 "Failed flowLookup\n".toList ++ (if tflow ≠ 0 then "NO target, fwmark=".toList ++ decInt conf.nolb ++ ['\n'] else [])

/-- The two lookups, /repo/src/nfqlb/cmdFlowLb.c:133-183, with the trace flow and the text. -/
def pktLookup (tr : Tr) (conf : Conf) (st : St) (proto : Nat) (data : Packet) (p : Parsed) : Res (St × Pkt × Nat × List Char) := do
  let (st, lb, udpencap) ← lookup st p.key proto data 0
  let tflow ← traceFind tr p.key proto data
  let t ← traceMatch tr tflow p.key proto data udpencap
  if isEncap p.key udpencap = true then do
    let t := t ++ tr.line 4 ("Udp encapsulated sctp packet on port ".toList ++ CText.dec udpencap ++ ['\n'])
    let p ← getHashKey udpencap proto data
    if p.rc < 0 then return (st, .done (.verdict (-1)), tflow, t ++ tr.line 4 "FAILED: Re-compute key with udpencap\n".toList)
    else do
      let (st, lb, _) ← lookup st p.key proto data 0
      if lb = 0 then return (st, .done (.verdict conf.nolb), tflow, t ++ tr.line 4 "Failed flowLookup for udpencap\n".toList ++ noLb tr conf tflow) else return (st, .has lb p, tflow, t)
  else if lb = 0 then return (st, .done (.verdict conf.nolb), tflow, t ++ noLb tr conf tflow)
  else return (st, .has lb p, tflow, t)

/-- `packetHandleFn`, /repo/src/nfqlb/cmdFlowLb.c:93-183. The text for fragments that are not first, :125 and :128, is left out. -/
def pktBegin (tr : Tr) (conf : Conf) (st : St) (proto : Nat) (data : Packet) : Res (St × Pkt × Nat × List Char) := do
  let p ← getHashKey 0 proto data
  if p.rc < 0 then return (st, .done (.verdict (-1)), 0, [])
  else do
    let redirect ← if p.rc % 4 ≠ 0 then tierRedirect conf.tier p.key else .ok none
    match redirect with
    | some fw => return (st, .done (.verdict fw), 0, tr.line 2 ("Fragment to LB tier. fw=".toList ++ decInt fw ++ ['\n']))
    | none =>
      if p.rc % 4 ≠ 0 ∧ p.rc % 2 = 0 then return (st, .done (.later p.key), 0, [])
      else pktLookup tr conf st proto data p

/-- `lb->target` after `loadbalancerRelease(lb)`, /repo/src/nfqlb/cmdFlowLb.c:194, :198, :217 and :223: undefined if it was freed. -/
def targetOf (st : St) (lb : Nat) : Res (List Char) :=
  match st.heap lb with
  | none => .ub
  | some l => .ok l.target

/-- The text of a line if it is written, with `lb->target` in it, /repo/src/nfqlb/cmdFlowLb.c:192-198 and :215-229. -/
def withTarget (b : Bool) (st : St) (lb : Nat) (before : String) (after : List Char) : Res (List Char) :=
  if b = true then do
    let t ← targetOf st lb
    return before.toList ++ t ++ after
  else .ok []

/-- The rest of `packetHandleFn`, /repo/src/nfqlb/cmdFlowLb.c:185-230, with a load-balancer. Here `handleFirstFragment` does not fail; the text after its failure, :208-210, is left out. -/
def pktEnd (tr : Tr) (conf : Conf) (env : Env) (st : St) (lb : Nat) (p : Parsed) (tflow len : Nat) : Res (St × LbAction × List Char) :=
  match st.heap lb with
  | none => .ub
  | some l => do
    let fw ← Maglev.target (env.mag l.seg) (hashKey p.key conf.hashMode)
    let st ← release st lb
    if fw < 0 then do
      let t ← withTarget (decide (tflow ≠ 0)) st lb "NO servers, target=" (", fwmark=".toList ++ decInt conf.notargets ++ ['\n'])
      return (st, .verdict conf.notargets, t)
    else do
      let t ← withTarget (decide (tflow ≠ 0)) st lb "target=" (", fwmark=".toList ++ decInt fw ++ ['\n'])
      let first := if p.rc % 2 = 1 then tr.line 2 "First fragment\n".toList else []
      let u ← withTarget (tr.on 1 || (tr.on 4 && decide (Flow.protoNum p.key = 132))) st lb "Using LB; "
        ("\nPacket; proto=".toList ++ CText.dec (Flow.protoNum p.key) ++ ", len=".toList ++ CText.dec len ++ ", fwmark=".toList ++ decInt fw ++ ['\n'])
      if p.rc % 2 = 1 then do
        let k ← withFragid p
        return (st, .first k fw, t ++ first ++ u)
      else return (st, .verdict fw, t ++ first ++ u)

/-- `packetHandleFn` as a whole, /repo/src/nfqlb/cmdFlowLb.c:93-231, without other threads in between. -/
def pktHandle (tr : Tr) (conf : Conf) (env : Env) (st : St) (proto : Nat) (data : Packet) : Res (St × LbAction × List Char) := do
  let (st, r, tflow, t) ← pktBegin tr conf st proto data
  match r with
  | .done a => return (st, a, t)
  | .has lb p => do
    let (st, a, u) ← pktEnd tr conf env st lb p tflow data.length
    return (st, a, t ++ u)

/-! ### The selection -/

/-- `traceEvent`, /repo/src/nfqlb/cmdTrace.c:18-27, with the values of /repo/src/lib/log.h:41 and /repo/src/nfqlb/nfqlb.h:95-100. -/
def traceEvents : List (List Char × Nat) :=
  [("log".toList, 1), ("packet".toList, 2), ("frag".toList, 4), ("flow-conf".toList, 8), ("sctp".toList, 16), ("target".toList, 32), ("flows".toList, 64)]

/-- `str2mask`, /repo/src/nfqlb/cmdTrace.c:13-35. -/
def str2mask (name : List Char) : Nat :=
  match traceEvents.find? (fun e => decide (name = e.1)) with
  | none => 0
  | some e => e.2

/-- The loop with `strtok`, /repo/src/nfqlb/cmdTrace.c:60-66. -/
def selectionMask (sel : List Char) : Nat := (CText.tokens [','] sel).foldl (fun m t => m ||| str2mask t) 0

/-- `cmdTrace`, /repo/src/nfqlb/cmdTrace.c:55-69: the mask for the options `--mask` and `--selection`. -/
def cmdTrace (maskOpt selection : Option (List Char)) : Res Nat :=
  match maskOpt, selection with
  | none, some sel => .ok (selectionMask sel)
  | some m, none => .ok (CText.strtol0 m).1
  | _, _ => .die

end Nfqlb.Trace
