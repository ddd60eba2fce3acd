/-! What the kernel makes of the netlink messages for packet queues (linux/netfilter/nfnetlink_queue.h): a reader of messages, written apart from the model of the code, and the queues of the kernel. -/

namespace Nfqlb.Spec.Nl

/-- Numbers in messages: netlink headers are in host byte order (little-endian), what is in the attributes in network byte order. -/
def little : List UInt8 → Nat
  | [] => 0
  | b :: bs => b.toNat + 256 * little bs

def big (bs : List UInt8) : Nat := little bs.reverse

/-- Attributes: length (with the header of 4 bytes), type, data, and padding to a multiple of 4. `none` if it is no sequence of attributes. -/
def attrs : Nat → List UInt8 → Option (List (Nat × List UInt8))
  | _, [] => some []
  | 0, _ => none
  | fuel + 1, bs =>
    let len := little (bs.take 2)
    let size := (len + 3) / 4 * 4
    if bs.length < 4 ∨ len < 4 ∨ bs.length < size then none
    else (attrs fuel (bs.drop size)).map ((little ((bs.drop 2).take 2), (bs.drop 4).take (len - 4)) :: ·)

/-- A message to the subsystem for queues (3): its type, the queue, and the attributes. -/
structure Msg where
  type : Nat
  queue : Nat
  attrs : List (Nat × List UInt8)
  deriving Repr, DecidableEq

/-- The reader: the length at the start is that of the message, the flag for a request (1) is set. -/
def read (bs : List UInt8) : Option Msg :=
  if bs.length < 20 ∨ little (bs.take 4) ≠ bs.length ∨ little ((bs.drop 6).take 2) ≠ 1 ∨ little ((bs.drop 5).take 1) ≠ 3 then none
  else (attrs bs.length (bs.drop 20)).map (fun as => ⟨little ((bs.drop 4).take 1), big ((bs.drop 18).take 2), as⟩)

/-- A queue of the kernel: what is copied of a packet (0: nothing, 1: no data, 2: also data), how much of it, how many packets may wait, and the flags (4: do not split GSO packets). -/
structure Queue where
  mode : Nat
  range : Nat
  maxlen : Nat
  flags : Nat
  deriving Repr, DecidableEq

/-- The queues by their numbers. -/
abbrev Kernel := Nat → Option Queue

/-- A new queue. -/
def fresh : Queue := ⟨0, 65531, 1024, 0⟩

/-- Effect of an attribute of a configuration message on a queue: 2 sets mode and range (0 and everything above 65531 count as 65531), 3 the length. -/
def setAttr (q : Queue) (a : Nat × List UInt8) : Queue :=
  if a.1 = 2 then
    let range := big (a.2.take 4)
    { q with mode := little (a.2.drop 4), range := if range = 0 ∨ 65531 < range then 65531 else range }
  else if a.1 = 3 then { q with maxlen := big a.2 }
  else q

/-- Flags: with attributes 5 (flags) and 4 (mask) the flags in the mask are set. -/
def setFlags (q : Queue) (as : List (Nat × List UInt8)) : Queue :=
  match as.lookup 5, as.lookup 4 with
  | some f, some m => { q with flags := (q.flags &&& (4294967295 - big m)) ||| (big f &&& big m) }
  | _, _ => q

/-- A configuration message (2). Attribute 1 is a command: 1 binds the queue if it is free, 2 gives it up, the others have no effect. -/
def config (k : Kernel) (m : Msg) : Kernel :=
  if m.type ≠ 2 then k
  else
    let k := match m.attrs.lookup 1 with
      | some (c :: _) =>
        if c = 1 then fun q => if q = m.queue ∧ k q = none then some fresh else k q
        else if c = 2 then fun q => if q = m.queue then none else k q
        else k
      | _ => k
    fun q => if q = m.queue then (k q).map (fun x => setFlags (m.attrs.foldl setAttr x) m.attrs) else k q

/-- A sequence of messages; `none` if one cannot be read. -/
def configAll (k : Kernel) : List (List UInt8) → Option Kernel
  | [] => some k
  | bs :: r => (read bs).bind (fun m => configAll (config k m) r)

/-- A verdict message (1): queue, number of the packet, mark and verdict, from the attributes 2 and 3. -/
def verdict (bs : List UInt8) : Option (Nat × Nat × Nat × Nat) :=
  (read bs).bind fun m =>
    match m.type, m.attrs with
    | 1, [(2, h), (3, mark)] => some (m.queue, big (h.drop 4), big mark, big (h.take 4))
    | _, _ => none

end Nfqlb.Spec.Nl
