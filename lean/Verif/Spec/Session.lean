import Verif.Spec.MaglevConfig
import Mathlib.Data.Nat.Prime.Basic
import Mathlib.Order.Basic
import Mathlib.Data.Nat.Find

/-! What a user expects of a session with `nfqlb init`, `activate`, `deactivate` and `delete`: load-balancers with names, each with a set of targets. -/

namespace Nfqlb.Spec.Session

open Nfqlb.Spec

/-- What the user types. -/
inductive Line where
  | init (shm : List Char) (own M N : Nat)
  | delete (shm : List Char)
  | activate (shm : List Char) (marks : List Nat)
  | deactivate (shm : List Char) (marks : List Nat)

def dec (n : Nat) : List Char := Nat.toDigits 10 n

/-- The elements of the command line. -/
def Line.argv : Line → List (List Char)
  | .init shm own M N => ["init".toList, "--shm=".toList ++ shm, "--ownfw=".toList ++ dec own, "--M=".toList ++ dec M, "--N=".toList ++ dec N]
  | .delete shm => ["delete".toList, "--shm=".toList ++ shm]
  | .activate shm marks => "activate".toList :: ("--shm=".toList ++ shm) :: marks.map dec
  | .deactivate shm marks => "deactivate".toList :: ("--shm=".toList ++ shm) :: marks.map dec

def Line.shm : Line → List Char
  | .init shm _ _ _ => shm
  | .delete shm => shm
  | .activate shm _ => shm
  | .deactivate shm _ => shm

/-- A load-balancer: its own mark, the number of slots, the maximum number of targets, and the targets. -/
structure Lb where
  own : Nat
  M : Nat
  N : Nat
  targets : Finset Int

abbrev Lbs := List Char → Option Lb

def set (S : Lbs) (name : List Char) (x : Option Lb) : Lbs := fun n => if n = name then x else S n

/-- The size of the table for a wanted size: the largest prime up to it, at least 3. -/
def tableSize (M : Nat) : Nat := Nat.findGreatest Nat.Prime (max M 3)

/-- What the line does: `init` makes a load-balancer without targets, or is refused if there would be more targets than slots. The other commands are for load-balancers that exist. -/
def Line.apply (S : Lbs) : Line → Lbs
  | .init shm own M N => if N ≤ tableSize M then set S shm (some ⟨own, tableSize M, N, ∅⟩) else S
  | .delete shm => set S shm none
  | .activate shm marks =>
    match S shm with
    | none => S
    | some lb => set S shm (some { lb with targets := (marks.map (fun (m : Nat) => (m : Int))).foldl (setActivate lb.N) lb.targets })
  | .deactivate shm marks =>
    match S shm with
    | none => S
    | some lb => set S shm (some { lb with targets := (marks.map (fun (m : Nat) => (m : Int))).foldl setDeactivate lb.targets })

/-- Whether the line is refused, which the user sees from the exit code. -/
def Line.refused (S : Lbs) : Line → Bool
  | .init _ _ M N => decide (tableSize M < N)
  | .delete _ => false
  | .activate shm _ => (S shm).isNone
  | .deactivate shm _ => (S shm).isNone

/-- Which lines of a session are refused. -/
def refusals : Lbs → List Line → List Bool
  | _, [] => []
  | S, l :: ls => l.refused S :: refusals (l.apply S) ls

/-- The load-balancers after a session. -/
def after (ls : List Line) : Lbs := ls.foldl Line.apply (fun _ => none)

/-- Numbers that are in range: marks and sizes are `int`; tables of at most 65536 slots (see C02), that are not too large in total (see C06). -/
def Line.InRange : Line → Prop
  | .init _ own M N => own ≤ 2147483647 ∧ M ≤ 65536 ∧ N ≤ 2147483647 ∧ M * N ≤ 1000000000
  | .delete _ => True
  | .activate _ marks => ∀ m ∈ marks, m ≤ 2147483647
  | .deactivate _ marks => ∀ m ∈ marks, m ≤ 2147483647

end Nfqlb.Spec.Session
