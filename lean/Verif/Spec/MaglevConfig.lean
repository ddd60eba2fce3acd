import Verif.Spec.Maglev
import Mathlib.Data.Finset.Card
import Mathlib.Algebra.BigOperators.Group.Finset.Basic

/-! Specification of the target set kept by `activate`/`deactivate`. -/

namespace Nfqlb.Spec

/-- The set of active targets (fwmarks) of a table. -/
def activeMarks (active : List Int) : Finset Int := (active.filter (fun a => 0 ≤ a)).toFinset

/-- The set of indices of active targets. -/
def activeIdx (active : List Int) : Finset Nat :=
  (Finset.range active.length).filter (fun i => 0 ≤ active.getD i (-1))

/-- No fwmark occupies two slots. -/
def NoDuplicates (active : List Int) : Prop :=
  ∀ (i j : Nat) (fw : Int), 0 ≤ fw → active[i]? = some fw → active[j]? = some fw → i = j

/-- `activate fw` on a set of at most `N` targets.  Negative numbers are no fwmarks. -/
def setActivate (N : Nat) (S : Finset Int) (fw : Int) : Finset Int :=
  if 0 ≤ fw ∧ S.card < N then insert fw S else S

/-- `deactivate fw` on a set of targets. -/
def setDeactivate (S : Finset Int) (fw : Int) : Finset Int := S.erase fw

/-- Commands given by fwmark only. -/
inductive MarkCmd where
  | activate (fws : List Int)
  | deactivate (fws : List Int)

/-- The set of targets after a history of commands. -/
def setRun (N : Nat) (S : Finset Int) : List MarkCmd → Finset Int
  | [] => S
  | .activate fws :: cs => setRun N (fws.foldl (setActivate N) S) cs
  | .deactivate fws :: cs => setRun N (fws.foldl setDeactivate S) cs

end Nfqlb.Spec
