import Verif.Proof.Options

/-! C75: no command uses the NULL value of an option. -/

set_option autoImplicit false

namespace Nfqlb.Props

open Nfqlb Nfqlb.Cmd Nfqlb.Spec.Cmd

/-- The table has all commands of the two programs. -/
example : commands.map (·.name) = nfqlbCommands.flatten ++ ipuCommands := by decide +kernel

/-- **C75**, for any table of up to 31 options with distinct names and any command line that is accepted: an option that takes an argument has a text as its value, if it is required or begins with one. -/
theorem C75_value (opts : List Opt) (hd : (opts.map (·.name)).Nodup) (argv : List Str) (vars : List Opt) (n : Nat) (h : parseOrDie opts argv = .ok (vars, n)) (o : Opt) (ho : o ∈ opts)
    (ha : o.hasArg = true) (hr : o.required = true ∨ o.arg ≠ some none) : ∃ v, valueOf vars o.name = some v := by
  obtain ⟨i, hi⟩ := List.getElem?_of_mem ho
  obtain ⟨p, h1, h2, h3, _⟩ := parseOrDie_ok h
  obtain ⟨v, hv⟩ := text_of opts argv p h1 h2 i o hi ha hr
  refine ⟨v, ?_⟩
  rw [value_index hd h hi, ← (parseArgv_ok opts argv p h1 h2).2.2.1 i, hv]
  rfl

/-- **C75.** Whatever the command line of any command of `nfqlb` or `ipu` is: the program ends, or the command has a text for each option whose value it uses without testing for NULL. -/
theorem C75_commands (c : Command) (hc : c ∈ commands) (argv : List Str) :
    parseOrDie c.opts argv = .die ∨ ∃ vars n, parseOrDie c.opts argv = .ok (vars, n) ∧ ∀ name ∈ c.uses, ∃ v, valueOf vars name = some v := by
  have hl : ∀ c ∈ commands, c.opts.length ≤ 31 ∧ (c.opts.map (·.name)).Nodup ∧
      ∀ name ∈ c.uses, ∃ o ∈ c.opts, o.name = name ∧ o.hasArg = true ∧ (o.required = true ∨ o.arg ≠ some none) := by decide +kernel
  obtain ⟨h1, h2, h3⟩ := hl c hc
  obtain ⟨p, hp⟩ := parseArgv_def c.opts h1 argv
  by_cases hr : 0 < p.rc
  · right
    have he : parseOrDie c.opts argv = .ok (p.vars, p.rc.toNat) := by
      unfold parseOrDie
      rw [hp, Res.ok_bind, if_pos hr]
      rfl
    refine ⟨_, _, he, ?_⟩
    intro name hn
    obtain ⟨o, ho, e, ha, hr⟩ := h3 name hn
    rw [← e]
    exact C75_value c.opts h2 argv _ _ he o ho ha hr
  · left
    unfold parseOrDie
    rw [hp, Res.ok_bind, if_neg hr]

/-- **C75**, the options that are tested for NULL: one that takes an argument and begins as NULL is NULL iff it was not given; one that takes none (`--promiscuous_ping` of `flowlb`) is NULL iff it was given. -/
theorem C75_tested (opts : List Opt) (hd : (opts.map (·.name)).Nodup) (argv : List Str) (vars : List Opt) (n : Nat) (h : parseOrDie opts argv = .ok (vars, n)) (i : Nat) (o : Opt) (ho : opts[i]? = some o) :
    (o.arg = some none → (valueOf vars o.name = none ↔ given (getopt opts argv.tail).1 i = false)) ∧
    (o.arg = some (some "no".toList) → (valueOf vars o.name = none ↔ given (getopt opts argv.tail).1 i = true)) := by
  rw [value_index hd h ho]
  have hs := getopt_sound opts _ argv.tail (Nat.le_refl _)
  refine ⟨fun ha => ?_, fun ha => ?_⟩
  · rcases finalArg_cases opts _ hs i o ho _ ha with ⟨h1, h2⟩ | ⟨h1, a, h2, h3⟩
    · rw [h1, h2]; simp
    · rw [h1, h2]
      have : o.hasArg = true := by rw [Opt.hasArg, ha]
      rw [this] at h3
      obtain ⟨v, hv⟩ := Option.isSome_iff_exists.mp h3
      rw [hv]; simp
  · rcases finalArg_cases opts _ hs i o ho _ ha with ⟨h1, h2⟩ | ⟨h1, a, h2, h3⟩
    · rw [h1, h2]; simp
    · rw [h1, h2]
      have : o.hasArg = false := by rw [Opt.hasArg, ha]; rfl
      rw [this] at h3
      cases a with
      | none => simp
      | some v => cases h3

example : (flowLbOpts.map (·.name)).Nodup ∧ (∃ vars, parseOrDie flowLbOpts (["flowlb", "--tun=nfqlb0", "--promiscuous_ping", "--queue", "0:3"].map String.toList) = .ok (vars, 5) ∧
    valueOf vars "queue".toList = some "0:3".toList ∧ valueOf vars "mtu".toList = some "1500".toList ∧ valueOf vars "promiscuous_ping".toList = none ∧ valueOf vars "lbshm".toList = none) := by
  refine ⟨by decide +kernel, ?_⟩
  have h : (match parseOrDie flowLbOpts (["flowlb", "--tun=nfqlb0", "--promiscuous_ping", "--queue", "0:3"].map String.toList) with
    | .ok (vars, n) => decide (n = 5 ∧ valueOf vars "queue".toList = some "0:3".toList ∧ valueOf vars "mtu".toList = some "1500".toList ∧ valueOf vars "promiscuous_ping".toList = none ∧ valueOf vars "lbshm".toList = none)
    | _ => false) = true := by decide +kernel
  split at h
  · rename_i vars n e
    obtain ⟨h1, h2⟩ := of_decide_eq_true h
    exact ⟨vars, by rw [e, h1], h2⟩
  · cases h

/-- A value that is missing is an error. -/
example : parseOrDie fwmarkOpts (["fwmark", "--src=10.0.0.1:80", "--dst"].map String.toList) = .die ∧ parseOrDie fwmarkOpts (["fwmark", "--src=10.0.0.1:80"].map String.toList) = .die := by decide +kernel

end Nfqlb.Props
