import Verif.Spec.Json

/-! What a user reads in the output of `nfqlb show`: a reader for this text. -/

namespace Nfqlb.Spec.Show

/-- The text begins with `p`: what comes after it. -/
def lit (p s : List Char) : Option (List Char) := if s.take p.length = p then some (s.drop p.length) else none

/-- A decimal number without leading zeros, and what comes after it. -/
def nat (s : List Char) : Option (Nat × List Char) := Nfqlb.Spec.J.number s

/-- A number with or without a minus sign. -/
def int (s : List Char) : Option (Int × List Char) :=
  match s with
  | '-' :: r => (nat r).map (fun x => (-(x.1 : Int), x.2))
  | _ => (nat s).map (fun x => ((x.1 : Int), x.2))

/-- Numbers, each after a blank. (The first argument bounds their number.) -/
def ints : Nat → List Char → List Int × List Char
  | n + 1, ' ' :: s =>
    match int s with
    | some (v, s) => (v :: (ints n s).1, (ints n s).2)
    | none => ([], ' ' :: s)
  | _, s => ([], s)

/-- A target: mark, and index in parentheses. -/
def target (s : List Char) : Option ((Int × Nat) × List Char) := do
  let (m, s) ← int s
  let s ← lit ['('] s
  let (i, s) ← nat s
  let s ← lit [')'] s
  return ((m, i), s)

/-- Targets, each after a blank. -/
def targets : Nat → List Char → List (Int × Nat) × List Char
  | n + 1, ' ' :: s =>
    match target s with
    | some (v, s) => (v :: (targets n s).1, (targets n s).2)
    | none => ([], ' ' :: s)
  | _, s => ([], s)

/-- What is shown: the name of the shared memory, the own mark, `M` and `N`, the beginning of the lookup table, and the active targets (mark and index). -/
structure Shown where
  shm : List Char
  own : Int
  M : Nat
  N : Nat
  lookup : List Int
  targets : List (Int × Nat)
  deriving Repr, DecidableEq

/-- Reads the output of `nfqlb show`; the name is what is on the first line. -/
def read (txt : List Char) : Option Shown := do
  let s ← lit "Shm: ".toList txt
  let shm := s.takeWhile (fun c => c != '\n')
  let s ← lit "\n  Fw: own=".toList (s.dropWhile (fun c => c != '\n'))
  let (own, s) ← int s
  let s ← lit "\n  Maglev: M=".toList s
  let (M, s) ← nat s
  let s ← lit ", N=".toList s
  let (N, s) ← nat s
  let s ← lit "\n   Lookup:".toList s
  let (lookup, s) := ints s.length s
  let s ← lit "...\n   Active:".toList s
  let (ts, s) := targets s.length s
  if s = ['\n'] then return ⟨shm, own, M, N, lookup, ts⟩ else none

end Nfqlb.Spec.Show
