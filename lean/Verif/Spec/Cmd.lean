import Verif.Model.Cmd

/-! What it means that required options are enforced. -/

namespace Nfqlb.Spec.Cmd

open Nfqlb.Cmd

/-- Option `i` is among what was given. -/
def given (gots : List Got) (i : Nat) : Bool := gots.any (fun g => match g with | .opt j _ => j == i | .bad => false)

/-- The numbers of the required options that were not given, in order. -/
def missing (opts : List Opt) (gots : List Got) : List Nat :=
  (List.range opts.length).filter (fun i => (opts[i]?.map (·.required)).getD false && !given gots i)

/-- The name of option `i`. -/
def nameAt (opts : List Opt) (i : Nat) : Str := (opts[i]?.map (·.name)).getD []

/-- Reports that `getopt_long_only` can make with these options: an index is in the table. -/
def Fits (opts : List Opt) (gots : List Got) : Prop := ∀ i a, .opt i a ∈ gots → i < opts.length

/-- No report is that of `--help`. -/
def NoHelp (opts : List Opt) (gots : List Got) : Prop := ∀ i a, .opt i a ∈ gots → nameAt opts i ≠ "help".toList

/-- The value that option `i` has in the end: the last one given, otherwise the one it has in the table. -/
def finalArg (opts : List Opt) (gots : List Got) (i : Nat) : Option (Option Str) :=
  match opts[i]? with
  | none => none
  | some o =>
    match o.arg with
    | none => none
    | some d =>
      match (gots.filterMap (fun g => match g with | .opt j a => if j = i then some a else none | .bad => none)).getLast? with
      | some a => some a
      | none => some d

/-- What a user writes on the command line: an option with a value, in the two usual forms, an option without value, or another word. -/
inductive Item where
  | eq (i : Nat) (v : Str)
  | sep (i : Nat) (v : Str)
  | flag (i : Nat)
  | word (w : Str)
  deriving Repr, DecidableEq

/-- The elements of `argv` for it. -/
def Item.render (opts : List Opt) : Item → List Str
  | .eq i v => ["--".toList ++ nameAt opts i ++ "=".toList ++ v]
  | .sep i v => ["--".toList ++ nameAt opts i, v]
  | .flag i => ["--".toList ++ nameAt opts i]
  | .word w => [w]

/-- The item fits the table: values for options that have one, and only for these; words do not begin with a dash, or are just a dash. -/
def Item.WF (opts : List Opt) : Item → Prop
  | .eq i _ => ∃ o, opts[i]? = some o ∧ o.hasArg = true
  | .sep i _ => ∃ o, opts[i]? = some o ∧ o.hasArg = true
  | .flag i => ∃ o, opts[i]? = some o ∧ o.hasArg = false
  | .word w => w.head? ≠ some '-' ∨ w = ['-']

/-- What is reported for it. -/
def Item.got : Item → Option Got
  | .eq i v => some (.opt i (some v))
  | .sep i v => some (.opt i (some v))
  | .flag i => some (.opt i none)
  | .word _ => none

/-- Names that can be written: distinct, not empty, without `=`. -/
def GoodNames (opts : List Opt) : Prop := (opts.map (·.name)).Nodup ∧ ∀ o ∈ opts, o.name ≠ [] ∧ '=' ∉ o.name

end Nfqlb.Spec.Cmd
