import Verif.Spec.FragTable

/-! A table of datagrams with unlimited memory: what the fragment table is meant to do. -/

namespace Nfqlb.Spec.Frag

open Nfqlb.Frag (Op Out)

/-- What is remembered about a datagram: when it was last asked for, the forwarding value if the first fragment was seen, and the fragments that wait for it. -/
structure Dgram where
  key : Key
  last : Nat
  value : Option Int
  waiting : List Nat
  deriving Repr, DecidableEq

/-- The datagram `k`, if it was asked for at most `T` ago. -/
def recent (T : Nat) (h : List Dgram) (now : Nat) (k : Key) : Option Dgram := h.find? (fun d => decide (d.key = k ∧ now ≤ d.last + T))

/-- Remember `d`, and nothing else about this datagram. -/
def remember (d : Dgram) (h : List Dgram) : List Dgram := d :: h.filter (fun x => decide (x.key ≠ d.key))

/-- One operation: a first fragment sets the value and gets the fragments that wait; a later fragment gets the value, or waits if it is not known and if it is not longer than the mtu.
Old datagrams are forgotten when the statistics are read and when there is something new about them. -/
def ideal (T mtu : Nat) (h : List Dgram) : Op → List Dgram × Out
  | .first now k v _ =>
    match recent T h now k with
    | none => (remember ⟨k, now, some v, []⟩ h, ⟨0, none, []⟩)
    | some d => match d.value with
      | none => (remember ⟨k, now, some v, []⟩ h, ⟨0, none, d.waiting⟩)
      | some _ => (remember { d with last := now } h, ⟨-1, none, []⟩)
  | .get now k =>
    match recent T h now k with
    | none => (h, ⟨-1, none, []⟩)
    | some d => (remember { d with last := now } h, match d.value with | none => ⟨-1, none, []⟩ | some v => ⟨0, some v, []⟩)
  | .frag now k id len _ _ =>
    let d := (recent T h now k).getD ⟨k, now, none, []⟩
    match d.value with
    | some v => (remember { d with last := now } h, ⟨0, some v, []⟩)
    | none =>
      if mtu < len then (remember { d with last := now } h, ⟨-1, none, []⟩)
      else (remember { d with last := now, waiting := id :: d.waiting } h, ⟨1, none, []⟩)
  | .stats now => (h.filter (fun d => decide (now ≤ d.last + T)), ⟨0, none, []⟩)

/-- The answers of the ideal table. -/
def idealOuts (T mtu : Nat) : List Dgram → List Op → List Out
  | _, [] => []
  | h, o :: os => (ideal T mtu h o).2 :: idealOuts T mtu (ideal T mtu h o).1 os

/-- The ideal table never holds more than `mb` datagrams and `mf` fragments. -/
def Fits (T mtu mb mf : Nat) : List Dgram → List Op → Prop
  | _, [] => True
  | h, o :: os =>
    (ideal T mtu h o).1.length ≤ mb ∧ ((ideal T mtu h o).1.map (fun d => d.waiting.length)).sum ≤ mf ∧ Fits T mtu mb mf (ideal T mtu h o).1 os

instance (T mtu mb mf : Nat) : ∀ (h : List Dgram) (os : List Op), Decidable (Fits T mtu mb mf h os)
  | _, [] => .isTrue trivial
  | h, o :: os =>
    have := instDecidableFits T mtu mb mf (ideal T mtu h o).1 os
    inferInstanceAs (Decidable (_ ∧ _ ∧ _))

/-- Later fragments. -/
def isLater : Op → Bool
  | .frag _ _ _ _ _ _ => true
  | _ => false

end Nfqlb.Spec.Frag
