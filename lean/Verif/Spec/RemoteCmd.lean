import Verif.Model.RemoteCmd
import Verif.Spec.Argv

/-! Requests as the user means them, and what is expected of the reader. -/

namespace Nfqlb.Spec.Rem

open Nfqlb.Remote Nfqlb.Spec.Argv

/-- A number in decimal. -/
def decimal (n : Int) : List Char := if n < 0 then '-' :: Nat.toDigits 10 n.natAbs else Nat.toDigits 10 n.natAbs

/-- A request to set a flow. -/
structure Request where
  name : List Char
  target : List Char
  priority : Option Int
  protocols : Option (List (List Char))
  dsts : Option (List (List Char))
  srcs : Option (List (List Char))
  dports : Option (List Char)
  sports : Option (List Char)
  mtch : Option (List (List Char))
  udpencap : Option Nat
  deriving Repr, DecidableEq

/-- How it is given on the command line: lists with commas, numbers in decimal. -/
def Request.opts (r : Request) : SetOpts where
  name := r.name
  target := r.target
  prio := r.priority.map decimal
  protocols := r.protocols.map joined
  dsts := r.dsts.map joined
  srcs := r.srcs.map joined
  dports := r.dports
  sports := r.sports
  mtch := r.mtch.map joined
  udpencap := r.udpencap.map (fun n : Nat => decimal (n : Int))

/-- A text that can be sent in a line. -/
def Clean (v : List Char) : Prop := '\n' ∉ v ∧ '\x00' ∉ v

/-- A list of one or more items, without commas or spaces. -/
def Items (l : List (List Char)) : Prop := l ≠ [] ∧ ∀ t ∈ l, t ≠ [] ∧ Clean t ∧ ',' ∉ t ∧ ' ' ∉ t

/-- A list of one or more items without commas, that do not begin with a space. -/
def MatchItems (l : List (List Char)) : Prop := l ≠ [] ∧ ∀ t ∈ l, t ≠ [] ∧ Clean t ∧ ',' ∉ t ∧ t.head? ≠ some ' '

/-- The values can be sent: no newlines, the name has at most 1000 characters (the program tests this for all texts but the name), the numbers have the right size. -/
structure Request.WF (r : Request) : Prop where
  name : Clean r.name ∧ r.name.length ≤ 1000
  target : Clean r.target
  priority : ∀ p, r.priority = some p → -2147483648 ≤ p ∧ p ≤ 2147483647
  protocols : ∀ l, r.protocols = some l → Items l
  dsts : ∀ l, r.dsts = some l → Items l
  srcs : ∀ l, r.srcs = some l → Items l
  dports : ∀ v, r.dports = some v → Clean v
  sports : ∀ v, r.sports = some v → Clean v
  mtch : ∀ l, r.mtch = some l → MatchItems l
  udpencap : ∀ n, r.udpencap = some n → n < 65536

/-- A text of at most 1000 characters, if it is given. -/
def Short (t : Option (List Char)) : Prop := ∀ v, t = some v → v.length ≤ 1000

/-- What the program permits: no text is too long; a port for encapsulation only together with protocols that name SCTP; ports only together with protocols. -/
structure Request.Permitted (r : Request) : Prop where
  target : r.target.length ≤ 255
  protocols : Short (r.protocols.map joined)
  dsts : Short (r.dsts.map joined)
  srcs : Short (r.srcs.map joined)
  dports : Short r.dports
  sports : Short r.sports
  mtch : Short (r.mtch.map joined)
  udpencap : r.udpencap ≠ none → ∃ l, r.protocols = some l ∧ ∃ a b c, joined l = a ++ b ++ c ∧ b.map Char.toLower = "sctp".toList
  ports : r.dports ≠ none ∨ r.sports ≠ none → r.protocols ≠ none

/-- What the server is to get: every field as it is in the request; 0 for numbers that are not given. -/
def Request.received (r : Request) : FlowCmd where
  action := some "set".toList
  name := some r.name
  target := some r.target
  priority := r.priority.getD 0
  protocols := r.protocols
  dsts := r.dsts
  srcs := r.srcs
  dports := r.dports
  sports := r.sports
  mtch := r.mtch
  udpencap := r.udpencap.getD 0

/-- The blocks of memory that a command has. -/
def blocks (c : FlowCmd) : Nat :=
  [c.action.isSome, c.name.isSome, c.target.isSome, c.protocols.isSome, c.dports.isSome, c.sports.isSome, c.dsts.isSome, c.srcs.isSome, c.mtch.isSome].count true

/-- The texts in a command. -/
def texts (c : FlowCmd) : List (List Char) := c.action.toList ++ c.name.toList ++ c.target.toList ++ c.dports.toList ++ c.sports.toList

/-- The lists in a command. -/
def lists (c : FlowCmd) : List (List (List Char)) := c.protocols.toList ++ c.dsts.toList ++ c.srcs.toList ++ c.mtch.toList

/-- Nothing in a command is longer than a line: 1023 characters, with the name of the field, which has 4 or more, and a colon. -/
def Small (c : FlowCmd) : Prop := (∀ t ∈ texts c, t.length < 1019) ∧ ∀ l ∈ lists c, l.length < 1024 ∧ ∀ t ∈ l, t.length < 1024

end Nfqlb.Spec.Rem
