import Verif.Model.FragRace

/-! When the reference counting of fragment data is safe. -/

namespace Nfqlb.Spec.Race

open Nfqlb.Race

/-- The entry that a move takes out of the tracker, if any. -/
def takenOut (s : St) : Mv → Option Entry
  | .remove i =>
    match s.thr[i]? with
    | some (.using k _) => find s k
    | _ => none
  | .expire e => if e ∈ s.entries then some e else none
  | _ => none

/-- A thread is in one of the two windows for this entry: it has inserted it and not yet taken its own reference, or it has found it and not yet read the return value. -/
def inWindow (e : Entry) : Th → Bool
  | .inserted _ loc _ => loc == e.loc
  | .found _ loc _ _ => loc == e.loc
  | _ => false

/-- In this schedule no entry is taken out of the tracker while a thread is in a window for it. -/
def Calm : St → List Mv → Prop
  | _, [] => True
  | s, m :: ms => (∀ e, takenOut s m = some e → ∀ t ∈ s.thr, inWindow e t = false) ∧ ∀ s', move s m = .ok s' → Calm s' ms

end Nfqlb.Spec.Race
