import Verif.Spec.Json
import Verif.Spec.Flow

/-! What a listing of flows says. -/

namespace Nfqlb.Spec.FP

open Nfqlb.Spec.BM Nfqlb.Spec.FL Nfqlb.Spec.RS Nfqlb.Spec.J

/-- A flow as it is listed. -/
structure Listed where
  name : List Char
  priority : Nat
  protocols : Option (List Proto)
  dests : Option (List Net)
  dports : Option (List (Nat × Nat))
  srcs : Option (List Net)
  sports : Option (List (Nat × Nat))
  mtch : Option (List Expr)
  udpencap : Nat
  count : Nat
  target : Option (List Char)

/-- An array of strings. -/
def strings (l : List (List Char)) : Json := .arr (l.map .str)

/-- A field that is only there if it has a value. -/
def field (name : String) (v : Option Json) : List (List Char × Json) := v.toList.map (fun j => (name.toList, j))

/-- The JSON object for a flow. -/
def Listed.json (d : Listed) : Json :=
  .obj (
    field "name" (some (.str d.name)) ++
    field "priority" (some (.num d.priority)) ++
    field "protocols" (d.protocols.map (fun l => strings (l.map Proto.text))) ++
    field "dests" (d.dests.map (fun l => strings (l.map Net.text))) ++
    field "dports" (d.dports.map (fun l => strings (l.map portText))) ++
    field "srcs" (d.srcs.map (fun l => strings (l.map Net.text))) ++
    field "sports" (d.sports.map (fun l => strings (l.map portText))) ++
    field "match" (d.mtch.map (fun l => strings (l.map Expr.text))) ++
    field "udpencap" (if d.udpencap > 0 then some (.num d.udpencap) else none) ++
    field "matches_count" (some (.num d.count)) ++
    field "user_ref" (d.target.map .str))

/-- Both are there and related, or none is there. -/
def Both {α β : Type} (R : α → β → Prop) (a : Option α) (b : Option β) : Prop := (a = none ∧ b = none) ∨ ∃ x y, a = some x ∧ b = some y ∧ R x y

/-- The two lists have the same length, and what is at the same place is related. -/
inductive Each {α β : Type} (R : α → β → Prop) : List α → List β → Prop
  | nil : Each R [] []
  | cons {a : α} {b : β} {l : List α} {m : List β} : R a b → Each R l m → Each R (a :: l) (b :: m)

/-- A network that is stored in a flow is the network that is listed: it contains the same addresses. -/
def SameNet (c : Flow.Cidr) (n : Net) : Prop := n.WF ∧ ∀ x : List UInt8, x.length = 16 → (Flow.addrInCidr c x = true ↔ n.Contains x)

/-- A set of ports that is stored in a flow is listed as ranges of ports, in order and merged as far as possible. -/
def SamePorts (p : Flow.Ports) (l : List (Nat × Nat)) : Prop :=
  Spaced l ∧ (∀ r ∈ l, Allowed 1 65535 r) ∧ ∀ v, Nfqlb.RS.rangeSetIn p.heap p.set v = .ok (decide (Covers l v))

/-- A byte-match expression that is stored in a flow is listed as an expression that is stored like this. -/
def SameMatch (i : Match.Item) (e : Expr) : Prop := e.WF = true ∧ Match.matchParse e.text = .ok (some i)

/-- What is listed is the flow. -/
structure Lists (f : Flow.Flow) (d : Listed) : Prop where
  name : d.name = f.name
  priority : (d.priority : Int) = f.priority
  protocols : Both (fun ps l => l ≠ [] ∧ ps = l.map (fun p => p.num.toNat)) f.protocols d.protocols
  dests : Both (Each SameNet) f.dsts d.dests
  dports : Both SamePorts f.dports d.dports
  srcs : Both (Each SameNet) f.srcs d.srcs
  sports : Both SamePorts f.sports d.sports
  mtch : Both (Each SameMatch) f.mtch d.mtch
  udpencap : d.udpencap = f.udpencap

/-- The arguments of a definition of a flow that can be listed: only plain characters in the name, a priority that is not negative, at least one protocol, ports with less than 1023 characters, at most 15 match
expressions. -/
structure CanList (a : Flow.Args) : Prop where
  name : ∀ n, a.name = some n → n.all plainChar = true
  priority : 0 ≤ a.priority ∧ a.priority ≤ 2147483647
  protocols : a.protocols ≠ some []
  dports : ∀ s, a.dports = some s → s.length < 1023
  sports : ∀ s, a.sports = some s → s.length < 1023
  mtch : ∀ l, a.mtch = some l → l.length ≤ 15

/-- The arguments to define the flow again from what is listed. The target is given to `flowDefine` as a pointer. -/
def Listed.args (d : Listed) (target : Nat) : Flow.Args where
  name := some d.name
  priority := d.priority
  userRef := target
  protocols := d.protocols.map (·.map Proto.text)
  dports := d.dports.map portsText
  sports := d.sports.map portsText
  dsts := d.dests.map (·.map Net.text)
  srcs := d.srcs.map (·.map Net.text)
  mtch := d.mtch.map (·.map Expr.text)
  udpencap := d.udpencap

/-- Two flows that cannot be told apart: also for every packet the result of matching is the same. -/
structure SameFlow (f g : Flow.Flow) : Prop where
  name : g.name = f.name
  priority : g.priority = f.priority
  target : g.userRef = f.userRef
  udpencap : g.udpencap = f.udpencap
  matches_ : ∀ (key : Key) (ping : Bool) (l3 : Nat) (data : Packet), key.src.length = 16 → key.dst.length = 16 → Flow.flowMatch key g ping l3 data = Flow.flowMatch key f ping l3 data

end Nfqlb.Spec.FP
