import Verif.Model.Packet
import Verif.Model.CText
import Verif.Model.Regex

/-! Model of the byte-match expressions /repo/src/lib/match.c. Memory allocation succeeds. Numbers of more than one byte may be read from odd addresses (x86-64, aarch64). -/

namespace Nfqlb.Match

open Nfqlb.Regex

/-- `[0-9]`, in `REGEX` /repo/src/lib/match.c:24 (C locale). -/
def reDigit : Re := .cls Char.isDigit
/-- `[0-9a-f]`, in `REGEX` /repo/src/lib/match.c:24. -/
def reHex : Re := .cls (fun c => c.isDigit || ('a' ≤ c && c ≤ 'f'))
/-- ` *`, in `REGEX` /repo/src/lib/match.c:24. -/
def spaces : Re := .star (chr ' ')

/-- `REGEX`, /repo/src/lib/match.c:24, without `^` and `$`. -/
def regex : Re :=
  seqs [
    .alt (lit "sctp".toList) (.alt (lit "tcp".toList) (lit "udp".toList)),
    chr '[', plus reDigit, spaces, chr ':', spaces, .cls (fun c => c == '1' || c == '2' || c == '4'), chr ']',
    opt (seqs [spaces, chr '&', spaces, lit "0x".toList, plus reHex]),
    spaces, chr '=', spaces, .alt (plus reDigit) (seqs [lit "0x".toList, plus reHex])]

/-- `struct MatchItem`, /repo/src/lib/match.c:29-35. -/
structure Item where
  proto : Nat
  offset : Nat
  nbytes : Nat
  mask : Nat
  value : Nat
  deriving Repr, DecidableEq

/-- `headerlength`, /repo/src/lib/match.c:42-53. -/
def headerlength (l4proto : Nat) : Nat :=
  if l4proto = 132 then 12 else if l4proto = 6 then 20 else if l4proto = 17 then 8 else 0

/-- The text after the first `c`: `strchr(s, c)` and `+1`, /repo/src/lib/match.c:86-102; if there is no `c` the pointer used is NULL+1. -/
def after (c : Char) (s : List Char) : Res (List Char) :=
  match CText.strchr c s with
  | some (_ :: r) => .ok r
  | _ => .ub

/-- The protocol, /repo/src/lib/match.c:75-82; `none`: "Unknown protocol". -/
def protoOf (s : List Char) : Option Nat :=
  if s.take 4 = ['s', 'c', 't', 'p'] then some 132
  else if s.take 3 = ['t', 'c', 'p'] then some 6
  else if s.take 3 = ['u', 'd', 'p'] then some 17
  else none

/-- `matchParse`, /repo/src/lib/match.c:68-104, for an item that was set to 0 before (as in `matchAdd`). `none` is any of the error strings. -/
def matchParse (str : List Char) : Res (Option Item) :=
  if str.length > 64 then .ok none
  else if matchesRe regex str = false then .ok none
  else match protoOf str with
    | none => .ok none
    | some proto => do
      let cp ← after '[' str
      let (offset, eptr) := CText.strtol0 cp
      let cp ← after ':' eptr
      let (nbytes, eptr) := CText.strtol0 cp
      if nbytes ≠ 1 ∧ nbytes ≠ 2 ∧ nbytes ≠ 4 then .ok none
      else if u32 (offset + nbytes) > headerlength proto then .ok none
      else
        let (mask, eptr) := match CText.strchr '&' eptr with
          | some r => CText.strtol0 (r.drop 1)
          | none => (0, eptr)
        let cp ← after '=' eptr
        return some ⟨proto, offset, nbytes, mask, (CText.strtol0 cp).1⟩

/-- `struct Match`, /repo/src/lib/match.c:37-40: the array of items. -/
abbrev Match := List Item

/-- `matchAdd`, /repo/src/lib/match.c:111-131: the array afterwards, `none` if an error is returned (the array is then unchanged). -/
def matchAdd (m : Match) (str : List Char) : Res (Option Match) := do
  match ← matchParse str with
  | some item => return some (m ++ [item])
  | none => return none

/-- The calls of `matchAdd` in `flowDefine`, /repo/src/lib/flow.c:264-270. -/
def matchAddAll (m : Match) : List (List Char) → Res (Option Match)
  | [] => .ok (some m)
  | s :: r => do
    match ← matchAdd m s with
    | some m => matchAddAll m r
    | none => return none

/-- The number of `nbytes` bytes at `p`, in network order, /repo/src/lib/match.c:193-204. For another number of bytes `x` is not set. -/
def readNumber (data : Packet) (p : Nat) : Nat → Res Nat
  | 1 => do
    let a ← rd data p
    return a.toNat
  | 2 => do
    let a ← rd data p
    let b ← rd data (p + 1)
    return a.toNat * 256 + b.toNat
  | 4 => do
    let a ← rd data p
    let b ← rd data (p + 1)
    let c ← rd data (p + 2)
    let d ← rd data (p + 3)
    return ((a.toNat * 256 + b.toNat) * 256 + c.toNat) * 256 + d.toNat
  | _ => .ub

/-- `matchesItem`, /repo/src/lib/match.c:188-209; `hdr` is the offset of the L4 header in the packet. -/
def matchesItem (item : Item) (data : Packet) (hdr : Nat) : Res Bool := do
  let x ← readNumber data (hdr + item.offset) item.nbytes
  return decide ((if item.mask ≠ 0 then x &&& item.mask else x) = item.value)

/-- `l4headerIpv4`, /repo/src/lib/match.c:211-226: the protocol and the offset of the L4 header. -/
def l4headerIpv4 (data : Packet) : Res (Option (UInt8 × Nat)) :=
  if !inBounds 0 20 data.length then .ok none
  else do
    let proto ← rd data 9
    let b0 ← rd data 0
    let p := b0.toNat % 16 * 4
    if !inBounds p (headerlength proto.toNat) data.length then return none
    else return some (proto, p)

/-- The loop of `l4headerIpv6`, /repo/src/lib/match.c:238-248. `none` is `return NULL`. -/
def walkL4 (data : Packet) : Nat → UInt8 → Nat → Res (Option (UInt8 × Nat))
  | 0, _, _ => .hang
  | fuel + 1, htype, hdr =>
    if !isExtensionHeader htype then .ok (some (htype, hdr))
    else if htype = 44 then .ok none
    else if !inBounds hdr 2 data.length then .ok none
    else do
      let nxt ← rd data hdr
      let l ← rd data (hdr + 1)
      if l = 0 then .ok none
      else walkL4 data fuel nxt (hdr + l.toNat * 8)

/-- `l4headerIpv6`, /repo/src/lib/match.c:228-254. -/
def l4headerIpv6 (data : Packet) : Res (Option (UInt8 × Nat)) :=
  if !inBounds 0 40 data.length then .ok none
  else do
    let nxt ← rd data 6
    match ← walkL4 data (turns data) nxt 40 with
    | none => return none
    | some (htype, hdr) =>
      if !inBounds hdr (headerlength htype.toNat) data.length then return none
      else return some (htype, hdr)

/-- The loop over the items, /repo/src/lib/match.c:177-185. -/
def matchItems (l4proto : Nat) (data : Packet) (hdr : Nat) : List Item → Res Bool
  | [] => .ok true
  | item :: items =>
    if item.proto = l4proto then do
      if ← matchesItem item data hdr then matchItems l4proto data hdr items
      else return false
    else matchItems l4proto data hdr items

/-- `matchMatches`, /repo/src/lib/match.c:145-186. -/
def matchMatches (m : Option Match) (proto l4proto : Nat) (data : Packet) : Res Bool :=
  match m with
  | none => .ok true
  | some items =>
    if items.length = 0 then .ok true
    else do
      match ← (if proto = 0x0800 then l4headerIpv4 data else l4headerIpv6 data) with
      | none => return false
      | some (l4, hdr) =>
        if l4 = 17 ∧ l4proto = 132 then
          if !inBounds (hdr + 8) (headerlength 132) data.length then return false
          else matchItems 132 data (hdr + 8) items
        else matchItems l4.toNat data hdr items

/-- `protostring`, /repo/src/lib/match.c:255-266. -/
def protostring (l4proto : Nat) : List Char :=
  if l4proto = 132 then "sctp".toList else if l4proto = 6 then "tcp".toList else if l4proto = 17 then "udp".toList else []

/-- What `snprintf` prints for an item, /repo/src/lib/match.c:282-290. -/
def itemText (item : Item) : List Char :=
  protostring item.proto ++ ['['] ++ CText.dec item.offset ++ [':'] ++ CText.dec item.nbytes ++ [']'] ++
    (if item.mask ≠ 0 then "&0x".toList ++ CText.hex item.mask else []) ++ "=0x".toList ++ CText.hex item.value

/-- Writing `text` and a NUL at the position `pos` of a buffer of `size` characters with `snprintf(str, space, …)`, /repo/src/lib/match.c:282-290: writes at most `space` characters; the text that ends up
in the buffer is returned. -/
def emit (size pos space : Nat) (text : List Char) : Res (List Char) :=
  if space = 0 then .ok []
  else if pos + min text.length (space - 1) + 1 > size then .ub
  else .ok (text.take (space - 1))

/-- The loop of `matchString`, /repo/src/lib/match.c:276-296; `space` is `space_left`. `out` is the text in the buffer up to `str`. -/
def matchStringLoop (len : Nat) : List Item → Nat → Nat → List Char → Res (Int × List Char)
  | [], _, _, out => .ok (0, out)
  | item :: items, pos, space, out =>
    if space < len ∧ space > 2 then
      if pos ≥ len then .ub
      else do
        let w ← emit len (pos + 1) (space - 1) (itemText item)
        let cnt := (itemText item).length
        if cnt ≥ space - 1 then return (1, out ++ [','] ++ w)
        else matchStringLoop len items (pos + 1 + cnt) (space - 1 - cnt) (out ++ [','] ++ w)
    else do
      let w ← emit len pos space (itemText item)
      let cnt := (itemText item).length
      if cnt ≥ space then return (1, out ++ w)
      else matchStringLoop len items (pos + cnt) (space - cnt) (out ++ w)

/-- `matchString`, /repo/src/lib/match.c:268-298, for a buffer of `len` characters: the value returned and the text in the buffer. -/
def matchString (m : Match) (len : Nat) : Res (Int × List Char) :=
  if len = 0 then .ok (-1, [])
  else matchStringLoop len m 0 len []

end Nfqlb.Match
