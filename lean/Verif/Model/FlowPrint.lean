import Verif.Model.Flow

/-! Model of the printing of flows, /repo/src/lib/flow.c:458-629. The text is what is written to `out`; writing does not fail. The counters `match_count` are a parameter. -/

namespace Nfqlb.CText

/-- The `i`-th 16-bit word of an address, in `inet_ntop` (glibc `inet_ntop6`), as used in /repo/src/lib/flow.c:475. -/
def word (src : List UInt8) (i : Nat) : Nat := (src.getD (2 * i) 0).toNat * 256 + (src.getD (2 * i + 1) 0).toNat

/-- A run of zero words in glibc `inet_ntop6`: where it begins (`none` for -1) and its length. For /repo/src/lib/flow.c:475. -/
structure Run where
  base : Option Nat
  len : Nat
  deriving Repr, DecidableEq

/-- `if (best.base == -1 || cur.len > best.len) best = cur`, in glibc `inet_ntop6`, for /repo/src/lib/flow.c:475. -/
def better (best cur : Run) : Run := if best.base = none ∨ cur.len > best.len then cur else best

/-- The search for the longest run of zero words in glibc `inet_ntop6`, for /repo/src/lib/flow.c:475; `i` is the index of the first of the words left, each is zero or not. -/
def findRun : List Bool → Nat → Run → Run → Run
  | [], _, best, cur => if cur.base ≠ none then better best cur else best
  | z :: r, i, best, cur =>
    if z = true then findRun r (i + 1) best (if cur.base = none then ⟨some i, 1⟩ else { cur with len := cur.len + 1 })
    else findRun r (i + 1) (if cur.base ≠ none then better best cur else best) { cur with base := none }

/-- The run that is written as `::`, in glibc `inet_ntop6`, for /repo/src/lib/flow.c:475: at least two words. -/
def bestRun (zs : List Bool) : Option (Nat × Nat) :=
  let best := findRun zs 0 ⟨none, 0⟩ ⟨none, 0⟩
  match best.base with
  | none => none
  | some b => if best.len < 2 then none else some (b, best.len)

/-- `inet_ntop4` of glibc, as `inet_ntop6` uses it for the last four bytes, for /repo/src/lib/flow.c:475. -/
def ntop4 (src : List UInt8) : List Char :=
  dec (src.getD 12 0).toNat ++ ['.'] ++ dec (src.getD 13 0).toNat ++ ['.'] ++ dec (src.getD 14 0).toNat ++ ['.'] ++ dec (src.getD 15 0).toNat

/-- The loop of glibc `inet_ntop6` that writes the words from the `i`-th on, for /repo/src/lib/flow.c:475; `n` is the number of words left. -/
def ntopLoop (src : List UInt8) (best : Option (Nat × Nat)) : Nat → Nat → List Char
  | 0, _ => []
  | n + 1, i =>
    let inside := match best with
      | none => false
      | some (b, l) => decide (b ≤ i ∧ i < b + l)
    if inside = true then (if best.map Prod.fst = some i then [':'] else []) ++ ntopLoop src best n (i + 1)
    else
      let sep : List Char := if i ≠ 0 then [':'] else []
      if i = 6 ∧ (best = some (0, 6) ∨ (best = some (0, 5) ∧ word src 5 = 65535)) then sep ++ ntop4 src
      else sep ++ hex (word src i) ++ ntopLoop src best n (i + 1)

/-- The end of the text in glibc `inet_ntop6`, for /repo/src/lib/flow.c:475: a colon if the run of zeros is at the end. -/
def ntopTail : Option (Nat × Nat) → List Char
  | none => []
  | some (b, l) => if b + l = 8 then [':'] else []

/-- `inet_ntop(AF_INET6, src, …)` (/repo/src/lib/flow.c:475), as in glibc, for a buffer that is large enough (INET6_ADDRSTRLEN). -/
def ntop6 (src : List UInt8) : List Char :=
  let best := bestRun ((List.range 8).map (fun i => decide (word src i = 0)))
  ntopLoop src best 8 0 ++ ntopTail best

/-- `strtok(buf, seps)`, the first call (/repo/src/lib/flow.c:525): the token and the rest after the separator that ends it. -/
def strtok1 (seps : List Char) (s : List Char) : Option (List Char × List Char) :=
  let s := s.dropWhile (fun c => decide (c ∈ seps))
  if s = [] then none else some (s.takeWhile (fun c => decide (c ∉ seps)), (s.dropWhile (fun c => decide (c ∉ seps))).drop 1)

end Nfqlb.CText

namespace Nfqlb.Flow

/-- The 64-bit number with these bytes in network byte order, `be64toh(x)` in /repo/src/lib/flow.c:464. -/
def be64toh (bytes : List UInt8) : Nat := bytes.foldl (fun n b => n * 256 + b.toNat) 0

/-- The loop of `leadingones`, /repo/src/lib/flow.c:465-470; there are no more than 65 turns. -/
def onesLoop : Nat → Nat → Nat → Res Nat
  | 0, _, _ => .hang
  | fuel + 1, x, n => if x / 9223372036854775808 % 2 = 1 then onesLoop fuel (u64 (2 * x)) (n + 1) else .ok n

/-- `leadingones`, /repo/src/lib/flow.c:458-471, for a word given by its 8 bytes. -/
def leadingones (x : List UInt8) : Res Nat :=
  if x = List.replicate 8 255 then .ok 64
  else if x = List.replicate 8 0 then .ok 0
  else onesLoop 65 (be64toh x) 0

/-- `printCidr`, /repo/src/lib/flow.c:472-478. -/
def printCidr (c : Cidr) : Res (List Char) := do
  let a ← leadingones (c.mask.take 8)
  let b ← leadingones (c.mask.drop 8)
  return "    \"".toList ++ CText.ntop6 c.adr ++ ['/'] ++ CText.dec (a + b) ++ ['"']

/-- `printCidrs`, /repo/src/lib/flow.c:479-486. -/
def printCidrs : List Cidr → Res (List Char)
  | [] => .ok []
  | c :: r => do
    let s ← printCidr c
    let t ← printCidrs r
    return s ++ (if r ≠ [] then ",\n".toList else []) ++ t

/-- The loop that prints tokens, /repo/src/lib/flow.c:494-499 and :526-531. -/
def printTokens : List (List Char) → List Char
  | [] => []
  | t :: r => "    \"".toList ++ t ++ ['"'] ++ (if r ≠ [] then ",\n".toList else []) ++ printTokens r

/-- `printPorts`, /repo/src/lib/flow.c:488-500. -/
def printPorts (p : Ports) : Res (List Char) := do
  let (rc, buf) ← RS.rangeSetString p.heap p.set 1024
  if rc < 0 then return [] else return printTokens (CText.tokens [',', ' '] buf)

/-- `protostr`, /repo/src/lib/flow.c:502-510. -/
def protostr (p : Nat) : List Char := if p = 6 then "tcp".toList else if p = 17 then "udp".toList else if p = 132 then "sctp".toList else []

/-- `printProto`, /repo/src/lib/flow.c:511-518. The array has 4 elements and ends with 0. Its first element is printed also if it is the 0 at the end, and then the element after it is read. -/
def printProto (ps : List Nat) : List Char :=
  "  \"protocols\": [ \"".toList ++ protostr (ps.headD 0) ++ ['"'] ++ (ps.drop 1).flatMap (fun p => ", \"".toList ++ protostr p ++ ['"']) ++ " ]".toList

/-- `printMatch`, /repo/src/lib/flow.c:520-532. -/
def printMatch (m : Match.Match) : Res (List Char) := do
  let (rc, buf) ← Match.matchString m 1024
  if rc < 0 then return []
  else
    match CText.strtok1 [','] buf with
    | none => return []
    | some (t, rest) => return printTokens (t :: CText.tokens [',', ' '] rest)

/-- An optional part of `printFlow`: `,\n`, the name of the field, and the values in brackets, as in /repo/src/lib/flow.c:545-550. -/
def printList {α : Type} (name : String) (x : Option α) (f : α → Res (List Char)) : Res (List Char) :=
  match x with
  | none => .ok []
  | some a => do
    let s ← f a
    return ",\n  \"".toList ++ name.toList ++ "\": [\n".toList ++ s ++ "\n  ]".toList

/-- `%u` of an `int`, /repo/src/lib/flow.c:540. -/
def asUnsigned (i : Int) : Nat := (i % 4294967296).toNat

/-- The protocols, /repo/src/lib/flow.c:541-544. -/
def printProtocols (f : Flow) : List Char :=
  match f.protocols with
  | none => []
  | some ps => ",\n".toList ++ printProto ps

/-- The target, /repo/src/lib/flow.c:580-583. -/
def printUser (f : Flow) (ref : Option (Nat → Res (List Char))) : Res (List Char) :=
  match ref with
  | none => .ok []
  | some r => do
    let t ← r f.userRef
    return ",\n  \"user_ref\": \"".toList ++ t ++ ['"']

/-- `printFlow`, /repo/src/lib/flow.c:534-585. `cnt` is `match_count`, `ref` is `user_ref2string`, `none` for NULL. -/
def printFlow (f : Flow) (cnt : Nat) (ref : Option (Nat → Res (List Char))) : Res (List Char) := do
  let dests ← printList "dests" f.dsts printCidrs
  let dports ← printList "dports" f.dports printPorts
  let srcs ← printList "srcs" f.srcs printCidrs
  let sports ← printList "sports" f.sports printPorts
  let mtch ← printList "match" f.mtch printMatch
  let user ← printUser f ref
  return "{\n  \"name\": \"".toList ++ f.name ++ "\",\n  \"priority\": ".toList ++ CText.dec (asUnsigned f.priority) ++
    printProtocols f ++
    dests ++ dports ++ srcs ++ sports ++ mtch ++
    (if f.udpencap > 0 then ",\n  \"udpencap\": ".toList ++ CText.dec f.udpencap else []) ++
    ",\n  \"matches_count\": ".toList ++ CText.dec cnt ++ user ++ "\n}".toList

/-- The loop over all flows, /repo/src/lib/flow.c:594-598. -/
def printFlows (cnt : Flow → Nat) (ref : Option (Nat → Res (List Char))) : List Flow → Res (List Char)
  | [] => .ok []
  | f :: r => do
    let s ← printFlow f (cnt f) ref
    let t ← printFlows cnt ref r
    return s ++ (if r ≠ [] then ",\n".toList else []) ++ t

/-- `flowSetPrint`, /repo/src/lib/flow.c:587-610. -/
def flowSetPrint (set : FlowSet) (name : Option (List Char)) (cnt : Flow → Nat) (ref : Option (Nat → Res (List Char))) : Res (List Char) :=
  match name with
  | none => do
    let s ← printFlows cnt ref set.flows
    return ['['] ++ s ++ "]\n".toList
  | some n =>
    match set.flows.find? (fun f => decide (n = f.name)) with
    | none => .ok []
    | some f => printFlow f (cnt f) ref

/-- The loop of `flowSetPrintNames`, /repo/src/lib/flow.c:621-626, after the first name. -/
def printNames : List Flow → List Char
  | [] => []
  | f :: r => ",\n  \"".toList ++ f.name ++ ['"'] ++ printNames r

/-- `flowSetPrintNames`, /repo/src/lib/flow.c:612-629. -/
def flowSetPrintNames (set : FlowSet) : List Char :=
  match set.flows with
  | [] => "[]\n".toList
  | f :: r => "[\n  \"".toList ++ f.name ++ ['"'] ++ printNames r ++ "\n]\n".toList

end Nfqlb.Flow
