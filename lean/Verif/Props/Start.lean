import Verif.Spec.Start
import Verif.Proof.Start
import Verif.Proof.Numeral
import Verif.Props.Options
import Verif.Props.ItemPool

/-! C76: the queues that are served. C77: the table of fragments at the start. C78: the tun device. -/

set_option autoImplicit false

namespace Nfqlb.Props

open Nfqlb Nfqlb.Start Nfqlb.Spec.Start
open Nfqlb.Numeral (scanRange_iff)
open Nfqlb.Frag (Op Out Ft run)
open Nfqlb.Spec.Frag (Timed)

/-! ### C76 -/

/-- **C76.** A decimal number up to 65535 as `--queue`: this queue is served and no other. -/
theorem C76_single (thread : Nat → Bool) (n : Nat) (h : n ≤ 65535) : ∃ qs, queues thread (Nat.toDigits 10 n) = .ok qs ∧ qs.map bound = [n] := by
  refine ⟨[n], ?_, by simp [bound]; omega⟩
  unfold queues
  rw [if_neg (colon_not_digits n), Addr.atoi_digits n (by omega)]
  refine congrArg Res.ok ?_
  congr 1
  omega

/-- **C76.** A range `a:b` up to 65535: each queue from `a` to `b` is served, and once, or (if a thread can not be made) the program ends. -/
theorem C76_range (thread : Nat → Bool) (a b : Nat) (h1 : a ≤ b) (h2 : b ≤ 65535) :
    (queues thread (Nat.toDigits 10 a ++ ':' :: Nat.toDigits 10 b) = .die ∧ ∃ q, a ≤ q ∧ q < b ∧ thread q = false) ∨
    ((∀ q, a ≤ q → q < b → thread q = true) ∧
      ∃ qs, queues thread (Nat.toDigits 10 a ++ ':' :: Nat.toDigits 10 b) = .ok qs ∧ (qs.map bound).Nodup ∧ ∀ q, q ∈ qs.map bound ↔ a ≤ q ∧ q ≤ b) := by
  have e : queues thread (Nat.toDigits 10 a ++ ':' :: Nat.toDigits 10 b) =
      if (List.range' a (b - a)).all thread then .ok (List.range' a (b - a) ++ [b]) else .die := by
    unfold queues
    rw [if_pos (by simp), scanRange_digits a b (by omega) (by omega)]
    dsimp only
    rw [if_neg (by omega)]
  rw [e]
  by_cases ht : (List.range' a (b - a)).all thread = true
  · right
    rw [if_pos ht]
    rw [List.all_eq_true] at ht
    refine ⟨fun q q1 q2 => ht q (by rw [List.mem_range'_1]; omega), _, rfl, ?_⟩
    have hm : (List.range' a (b - a) ++ [b]).map bound = List.range' a (b - a) ++ [b] := by
      have : (List.range' a (b - a) ++ [b]).map bound = (List.range' a (b - a) ++ [b]).map id := by
        apply List.map_congr_left
        intro q hq
        rw [List.mem_append, List.mem_range'_1, List.mem_singleton] at hq
        unfold bound
        dsimp only [id]
        omega
      rw [this, List.map_id]
    rw [hm]
    refine ⟨?_, ?_⟩
    · rw [List.nodup_append]
      refine ⟨List.nodup_range', by simp, ?_⟩
      intro x hx y hy
      rw [List.mem_range'_1] at hx
      rw [List.mem_singleton] at hy
      omega
    · intro q
      rw [List.mem_append, List.mem_range'_1, List.mem_singleton]
      omega
  · left
    rw [if_neg ht]
    refine ⟨rfl, ?_⟩
    rw [List.all_eq_true] at ht
    have : ∃ q ∈ List.range' a (b - a), thread q ≠ true := by
      apply Classical.byContradiction
      intro hn
      exact ht (fun q hq => Classical.byContradiction fun hc => hn ⟨q, hq, hc⟩)
    obtain ⟨q, hq, hf⟩ := this
    rw [List.mem_range'_1] at hq
    exact ⟨q, by omega, by omega, by simpa using hf⟩

example : queues (fun _ => true) "0:3".toList = .ok [0, 1, 2, 3] ∧ "0:3".toList = Nat.toDigits 10 0 ++ ':' :: Nat.toDigits 10 3 ∧ queues (fun _ => true) "2".toList = .ok [2] ∧ queues (fun q => q != 1) "0:3".toList = .die := by
  decide +kernel

/-- **C76.** A range with the numbers in the wrong order, or where a number is missing: the program ends. -/
theorem C76_refused (thread : Nat → Bool) (a b : Nat) (ha : a ≤ 4294967295) (hb : b ≤ 4294967295) (rest : List Char) :
    (b < a → queues thread (Nat.toDigits 10 a ++ ':' :: Nat.toDigits 10 b) = .die) ∧ queues thread (':' :: rest) = .die ∧ queues thread (Nat.toDigits 10 a ++ [':']) = .die := by
  refine ⟨fun h => ?_, ?_, ?_⟩
  · unfold queues
    rw [if_pos (by simp), scanRange_digits a b ha hb]
    dsimp only
    rw [if_pos h]
  · unfold queues
    rw [if_pos (by simp)]
    rfl
  · unfold queues
    rw [if_pos (by simp)]
    have : scanRange (Nat.toDigits 10 a ++ [':']) = none := by
      unfold scanRange
      rw [RS.scanU_digits a ha _ (by intro c hc; simp at hc; subst hc; rfl)]
      rfl
    rw [this]

/-- **C76.** Whatever the text: the program ends or serves at least one queue. -/
theorem C76_some (thread : Nat → Bool) (qnum : List Char) : queues thread qnum = .die ∨ ∃ qs, queues thread qnum = .ok qs ∧ qs ≠ [] := queues_cases thread qnum

/-- **C76.** Which texts with a colon are accepted, exactly: those that are read as a range `a:b` in the right order, whatever comes after the second number; then each queue from `a` to `b` gets a call of `nfqueueRun`, and once. All
other texts with a colon end the program, as does a thread that can not be made. A text without a colon is never refused. -/
theorem C76_exact (thread : Nat → Bool) (qnum : List Char) :
    (':' ∈ qnum → ∀ qs, queues thread qnum = .ok qs ↔ ∃ a b, ReadsRange qnum a b ∧ a ≤ b ∧ (∀ q, a ≤ q → q < b → thread q = true) ∧ qs = List.range' a (b + 1 - a)) ∧
    (queues thread qnum = .die ↔ ':' ∈ qnum ∧ ∀ a b, ReadsRange qnum a b → a ≤ b → ∃ q, a ≤ q ∧ q < b ∧ thread q = false) ∧
    (':' ∉ qnum → ∃ q, queues thread qnum = .ok [q]) := by
  have hall : ∀ a b : Nat, (List.range' a (b - a)).all thread = true ↔ ∀ q, a ≤ q → q < b → thread q = true := by
    intro a b
    rw [List.all_eq_true]
    exact ⟨fun h q q1 q2 => h q (by rw [List.mem_range'_1]; omega), fun h q hq => by rw [List.mem_range'_1] at hq; exact h q (by omega) (by omega)⟩
  have hlist : ∀ a b : Nat, a ≤ b → List.range' a (b - a) ++ [b] = List.range' a (b + 1 - a) := by
    intro a b hab
    rw [show b + 1 - a = (b - a) + 1 by omega, List.range'_concat]
    congr 2
    omega
  have huniq : ∀ a b a' b', ReadsRange qnum a b → ReadsRange qnum a' b' → a = a' ∧ b = b' := by
    intro a b a' b' h h'
    rw [← scanRange_iff] at h h'
    rw [h] at h'
    exact Prod.mk.inj (Option.some.inj h')
  by_cases hc : ':' ∈ qnum
  · have key : ∀ qs, queues thread qnum = .ok qs ↔ ∃ a b, ReadsRange qnum a b ∧ a ≤ b ∧ (∀ q, a ≤ q → q < b → thread q = true) ∧ qs = List.range' a (b + 1 - a) := by
      intro qs
      unfold queues
      rw [if_pos hc]
      cases hs : scanRange qnum with
      | none =>
        refine ⟨fun h => (by cases h), ?_⟩
        rintro ⟨a, b, h, _⟩
        rw [← scanRange_iff, hs] at h
        cases h
      | some ab =>
        obtain ⟨a, b⟩ := ab
        have hr := (scanRange_iff _ _ _).1 hs
        dsimp only
        constructor
        · intro h
          by_cases hab : a > b
          · rw [if_pos hab] at h; cases h
          · rw [if_neg hab] at h
            by_cases ht : (List.range' a (b - a)).all thread = true
            · rw [if_pos ht] at h
              refine ⟨a, b, hr, by omega, (hall a b).1 ht, ?_⟩
              rw [← hlist a b (by omega)]
              exact (Res.ok.inj h).symm
            · rw [if_neg ht] at h; cases h
        · rintro ⟨a', b', h', hab, ht, rfl⟩
          obtain ⟨rfl, rfl⟩ := huniq _ _ _ _ hr h'
          rw [if_neg (by omega), if_pos ((hall a b).2 ht), hlist a b hab]
    refine ⟨fun _ => key, ?_, fun h => absurd hc h⟩
    constructor
    · intro hd
      refine ⟨hc, fun a b hr hab => ?_⟩
      by_contra hn
      have := (key (List.range' a (b + 1 - a))).2 ⟨a, b, hr, hab, (fun q q1 q2 => by
        cases ht : thread q
        · exact absurd ⟨q, q1, q2, ht⟩ hn
        · rfl), rfl⟩
      rw [hd] at this
      cases this
    · rintro ⟨_, h⟩
      rcases queues_cases thread qnum with hd | ⟨qs, hok, _⟩
      · exact hd
      · obtain ⟨a, b, hr, hab, ht, _⟩ := (key qs).1 hok
        obtain ⟨q, q1, q2, hf⟩ := h a b hr hab
        rw [ht q q1 q2] at hf
        cases hf
  · have hq : ∃ q, queues thread qnum = .ok [q] := by
      unfold queues
      rw [if_neg hc]
      exact ⟨_, rfl⟩
    refine ⟨fun h => absurd h hc, ⟨fun hd => ?_, fun h => absurd h.1 hc⟩, fun _ => hq⟩
    obtain ⟨q, hq⟩ := hq
    rw [hd] at hq
    cases hq

example : ReadsRange " 1:+2x".toList 1 2 ∧ queues (fun _ => true) " 1:+2x".toList = .ok [1, 2] ∧ queues (fun _ => true) "1 :2".toList = .die ∧ queues (fun _ => true) "-1:2".toList = .die := by
  refine ⟨(scanRange_iff _ _ _).1 (by decide +kernel), by decide +kernel, by decide +kernel, by decide +kernel⟩

/-- **C76.** A text without a colon, exactly: it is read as one number, with white space and a sign before it and anything after it; a number that does not fit in 64 bits is read as the largest or least that does, and the
queue is the number modulo 2^16. A text that does not begin with a number is queue 0. -/
theorem C76_number (thread : Nat → Bool) :
    (∀ blanks sign ds rest : List Char, ':' ∉ blanks ++ (sign ++ (ds ++ rest)) → (∀ c ∈ blanks, c ∈ [' ', '\t', '\n', '\x0b', '\x0c', '\r']) → (sign = [] ∨ sign = ['-'] ∨ sign = ['+']) →
      ds ≠ [] → (∀ c ∈ ds, c.isDigit = true) → (∀ c ∈ rest.head?, c.isDigit = false) →
      ∃ q, queues thread (blanks ++ (sign ++ (ds ++ rest))) = .ok [q] ∧ q < 2 ^ 32 ∧
        (bound q : Int) = (if sign = ['-'] then - (min (Nat.ofDigitChars 10 ds 0) (2 ^ 63) : Nat) else (min (Nat.ofDigitChars 10 ds 0) (2 ^ 63 - 1) : Nat) : Int) % 65536) ∧
    (∀ qnum : List Char, ':' ∉ qnum → (∀ v rest, ¬ Numeral qnum v rest) → queues thread qnum = .ok [0]) := by
  refine ⟨?_, ?_⟩
  · intro blanks sign ds rest hc hb hs hd hds hr
    refine ⟨(Remote.atoi (blanks ++ (sign ++ (ds ++ rest))) % 4294967296).toNat, by unfold queues; rw [if_neg hc], by omega, ?_⟩
    have h := Numeral.atoi_numeral blanks sign ds rest hb hs hd hds hr
    rw [show (2 : Nat) ^ 63 = 9223372036854775808 by decide, show (9223372036854775808 - 1 : Nat) = 9223372036854775807 by decide]
    unfold bound
    rw [h]
    generalize (if sign = ['-'] then - (min (Nat.ofDigitChars 10 ds 0) 9223372036854775808 : Nat) else (min (Nat.ofDigitChars 10 ds 0) 9223372036854775807 : Nat) : Int) = x
    omega
  · intro qnum hc hn
    unfold queues
    rw [if_neg hc, Numeral.atoi_none qnum hn]
    rfl

example : queues (fun _ => true) " -1x".toList = .ok [4294967295] ∧ bound 4294967295 = 65535 ∧ " -1x".toList = [' '] ++ (['-'] ++ (['1'] ++ ['x'])) ∧ queues (fun _ => true) "99999999999999999999".toList = .ok [4294967295] := by
  decide +kernel

/-- **C76.** The value of `--queue` on the command line decides which queues are served. -/
theorem C76_argv (flow : Bool) (e : Env) (argv : List (List Char)) (s : Started) (h : startArgv flow e argv = .ok s) :
    ∃ vars n q, Cmd.parseOrDie (if flow then Cmd.flowLbOpts else Cmd.lbOpts) argv = .ok (vars, n) ∧ Cmd.valueOf vars "queue".toList = some q ∧ queues e.thread q = .ok s.queues := by
  obtain ⟨vars, n, h1, h2⟩ := startArgv_ok h
  obtain ⟨_, _, _, _, _, _, _, _, _, _, _, _, q, _, _, _, _, _, _, _, _, _, _, _, _, _, hq, _, hqs, _⟩ := start_ok h2
  exact ⟨vars, n, q, h1, hq, hqs⟩

/-- **C76 fails for other texts**, which are accepted: a range with a hyphen serves the first queue only, what comes after the second number is ignored, a text without a number is queue 0, and larger numbers are cut to 16 bits, so
that a queue may be served that was not asked for, or asked for twice. -/
theorem C76_violated (thread : Nat → Bool) (ht : ∀ q, thread q = true) :
    queues thread "5-7".toList = .ok [5] ∧ queues thread "1:2:3".toList = .ok [1, 2] ∧ queues thread "all".toList = .ok [0] ∧
    (∃ qs, queues thread "65538".toList = .ok qs ∧ qs.map bound = [2]) ∧
    (∃ qs, queues thread "0:65536".toList = .ok qs ∧ ¬ (qs.map bound).Nodup) := by
  refine ⟨rfl, ?_, rfl, ⟨_, rfl, rfl⟩, ?_⟩
  · have e : thread = fun _ => true := funext ht
    subst e
    decide +kernel
  · have e : queues thread "0:65536".toList = if (List.range' 0 65536).all thread then .ok (List.range' 0 65536 ++ [65536]) else .die := by
      have e1 : "0:65536".toList = Nat.toDigits 10 0 ++ ':' :: Nat.toDigits 10 65536 := by decide +kernel
      rw [e1]
      unfold queues
      rw [if_pos (by simp), scanRange_digits _ _ (by decide) (by decide)]
      dsimp only
      rw [if_neg (by decide)]
    rw [e, if_pos (by rw [List.all_eq_true]; exact fun q _ => ht q)]
    refine ⟨_, rfl, ?_⟩
    rw [List.map_append, List.nodup_append]
    intro h
    refine h.2.2 0 ?_ (bound 65536) (by simp) (by decide)
    rw [List.mem_map]
    exact ⟨0, by rw [List.mem_range'_1]; omega, by decide⟩

/-! ### C77 -/

/-- **C77.** Whenever the program has started: the mtu is at least 576, and either there is no tun device and no memory for fragments, or the device with the given name is open, stored fragments are written to it, and its mtu is
not smaller than the one that was given. -/
theorem C77_started (flow : Bool) (e : Env) (argv : List (List Char)) (s : Started) (h : startArgv flow e argv = .ok s) :
    ∃ vars n, Cmd.parseOrDie (if flow then Cmd.flowLbOpts else Cmd.lbOpts) argv = .ok (vars, n) ∧ 576 ≤ s.mtu ∧
      (Cmd.valueOf vars "tun".toList = none → s.inject = none ∧ s.frags = 0) ∧
      ∀ name, Cmd.valueOf vars "tun".toList = some name → ∃ (fd m : Nat), s.inject = some fd ∧ e.dev.opened = some fd ∧ e.dev.setIff (ifName name) = true ∧
        e.dev.mtuOf (ifName name) = some (m : Int) ∧ s.mtu ≤ m := by
  obtain ⟨vars, n, h1, h2⟩ := startArgv_ok h
  obtain ⟨_, _, mtu, _, _, inj, _, _, fr, _, _, _, _, _, _, hm, hm1, _, _, hi, _, _, hf, _, _, _, _, _, _, e1⟩ := start_ok h2
  obtain ⟨_, _, hr⟩ := num_ok hm
  have hr2 := atoi_range
  have hu : (uns mtu : Int) = mtu := uns_nonneg (by omega) (by rw [hr]; exact (atoi_range _).2)
  refine ⟨vars, n, h1, ?_, ?_, ?_⟩
  · rw [e1]; show 576 ≤ uns mtu; omega
  · intro ht
    rcases openTun_ok hi (by omega) with ⟨_, hn⟩ | ⟨name, _, _, _, hn, _⟩
    · subst hn
      have : fr = 0 := by cases hf; rfl
      subst this
      rw [e1]
      exact ⟨rfl, rfl⟩
    · rw [ht] at hn; cases hn
  · intro name ht
    rcases openTun_ok hi (by omega) with ⟨hn, _⟩ | ⟨name', fd, sock, m, hn, hj, ho, hs, hk, hl, hmm, hle⟩
    · rw [ht] at hn; cases hn
    · rw [ht] at hn
      cases hn
      have hname : strncpyName name = ifName name := by
        unfold strncpyName ifName ifNameSize
        rw [List.take_append, List.take_of_length_le (by omega), List.take_replicate]
        congr 2
        omega
      refine ⟨fd, m.toNat, by rw [e1]; exact hj, ho, hname ▸ hs, ?_, ?_⟩
      · rw [show ((m.toNat : Nat) : Int) = m by omega]
        exact hmm
      · rw [e1]; show uns mtu ≤ m.toNat; omega

/-- **C77.** The numbers on the command line are those that are used: options whose texts are decimal numbers up to 2147483647. -/
theorem C77_numbers (flow : Bool) (e : Env) (argv : List (List Char)) (s : Started) (h : startArgv flow e argv = .ok s) :
    ∃ vars n, Cmd.parseOrDie (if flow then Cmd.flowLbOpts else Cmd.lbOpts) argv = .ok (vars, n) ∧ ∀ x : Nat,
      (Given vars "mtu" x → s.mtu = x) ∧ (Given vars "ft_size" x → s.hsize = x) ∧ (Given vars "ft_buckets" x → s.buckets = x) ∧
      (Given vars "ft_frag" x → s.inject.isSome = true → s.frags = x) ∧ (Given vars "ft_ttl" x → s.ttl = x) ∧ (Given vars "qlength" x → s.qlen = x) ∧ (Given vars "hash_mode" x → s.hashMode = x) ∧
      (Given vars "reassembler" x → s.reass = if x = 0 then none else some x) ∧ (Given vars "notargets_fwmark" x → s.notargets = x) ∧
      (flow = true → Given vars "nolb_fwmark" x → s.nolb = x) ∧ (flow = false → Given vars "sctp_encap" x → s.udpEncap = x) := by
  obtain ⟨vars, n, h1, h2⟩ := startArgv_ok h
  obtain ⟨nt, nl, mtu, ue, hm, inj, hs, bk, fr, tt, re, ql, q, k1, k2, k3, _, k5, k6, k7, k8, k9, k10, k11, k12, k13, _, _, _, e1⟩ := start_ok h2
  have key : ∀ {name : String} {y : Int} {x : Nat}, num vars name = .ok y → Given vars name x → y = (x : Int) ∧ uns y = x := by
    intro name y x hy hg
    obtain ⟨t, ht, rfl⟩ := num_ok hy
    rw [hg.1] at ht
    cases ht
    rw [Addr.atoi_digits x hg.2]
    have := hg.2
    exact ⟨rfl, by unfold uns; omega⟩
  refine ⟨vars, n, h1, fun x => ⟨?_, ?_, ?_, ?_, ?_, ?_, ?_, ?_, ?_, ?_, ?_⟩⟩
  · intro g; rw [e1]; exact (key k3 g).2
  · intro g; rw [e1]; exact (key k8 g).2
  · intro g; rw [e1]; exact (key k9 g).2
  · intro g hj
    have hj' : inj.isSome = true := by rw [e1] at hj; exact hj
    rw [hj'] at k10
    rw [e1]; exact (key k10 g).2
  · intro g; rw [e1]; exact (key k11 g).2
  · intro g; rw [e1]; exact (key k13 g).2
  · intro g; rw [e1]; exact (key k6 g).2
  · intro g
    obtain ⟨g1, g2⟩ := key k12 g
    rw [e1]
    show (if re > 0 then some (uns re) else none) = _
    rw [g2, g1]
    by_cases h0 : x = 0
    · rw [if_pos h0, if_neg (by omega)]
    · rw [if_neg h0, if_pos (by omega)]
  · intro g; rw [e1]; exact (key k1 g).1
  · intro hfl g; rw [hfl] at k2; rw [e1]; exact (key k2 g).1
  · intro hfl g; rw [hfl] at k5; rw [e1]; exact (key k5 g).2

/-- The key of a datagram. -/
def stKey : Key := { Key.zero with src := List.replicate 16 1, dst := List.replicate 16 2 }

/-- A kernel with the device `nfqlb0`. -/
def stEnv : Env where
  dev := ⟨some 5, fun _ => true, some 6, fun n => if n = "nfqlb0".toList ++ List.replicate 10 '\x00' then some 1500 else none⟩
  thread := fun _ => true
  sizeofBucket := 96
  sizeofFragData := 80
  sizeofHole := 24

example : startArgv true stEnv (["flowlb", "--tun=nfqlb0", "--queue", "0:3", "--ft_frag=50", "--reassembler=100"].map String.toList) =
    .ok ⟨-1, -1, 0, 1, false, 1500, some 5, 500, 500, 50, 200, some 100, 1024, [0, 1, 2, 3]⟩ := by decide +kernel

example : startArgv false stEnv (["lb", "--mtu=1400", "--sctp_encap=9899"].map String.toList) = .ok ⟨-1, -1, 9899, 1, false, 1400, none, 500, 500, 0, 200, none, 1024, [2]⟩ ∧
    startArgv false stEnv (["lb", "--mtu=500"].map String.toList) = .die ∧ startArgv false stEnv (["lb", "--tun=nfqlb0", "--mtu=9000"].map String.toList) = .die := by decide +kernel

/-- **C77.** Without a tun device, with a table of at least one place: whatever packets come, no fragment is stored, and none is injected. -/
theorem C77_no_tun (flow : Bool) (e : Env) (argv : List (List Char)) (s : Started) (h : startArgv flow e argv = .ok s) (hi : s.inject = none) (hs : 0 < s.hsize) (ops : List Op) (ht : Timed 0 ops) :
    ∃ ft outs, run s.table ops = .ok (ft, outs) ∧ outs.length = ops.length ∧ ∀ o ∈ outs, o.rc ≠ 1 ∧ o.injected = [] := by
  obtain ⟨vars, n, -, -, h1, h2⟩ := C77_started flow e argv s h
  have hf : s.frags = 0 := by
    cases ht : Cmd.valueOf vars "tun".toList with
    | none => exact (h1 ht).2
    | some name =>
      obtain ⟨fd, _, hfd, _⟩ := h2 name ht
      rw [hi] at hfd; cases hfd
  have hc := Frag.create_finv (hsize := s.hsize) (mb := s.buckets) (mf := s.frags) (mtu := s.mtu) (t := s.ttl) (reass := s.reass.isSome) hs
  obtain ⟨ft, outs, hr, hl, _⟩ := Frag.run_spec ops hc ht
  rw [hf] at hc
  refine ⟨ft, outs, hr, hl, run_no_room (ft' := ft) ops hc ht ?_⟩
  rw [← hf]
  exact hr

example : ∃ s, startArgv false stEnv (["lb"].map String.toList) = .ok s ∧ s.inject = none ∧ 0 < s.hsize ∧ Timed 0 [Op.frag 5 stKey 1 1000 true 1, Op.first 6 stKey 7 true] :=
  ⟨⟨-1, -1, 0, 1, false, 1500, none, 500, 500, 0, 200, none, 1024, [2]⟩, by decide +kernel, rfl, by decide, by simp [Timed, Spec.Frag.timeOf]⟩

/-- **C77.** With a tun device: no fragment is stored (and so none is written to the device) that is larger than the mtu of the device. -/
theorem C77_fits (flow : Bool) (e : Env) (argv : List (List Char)) (s : Started) (h : startArgv flow e argv = .ok s) (fd : Nat) (hi : s.inject = some fd) (hs : 0 < s.hsize)
    (ops : List Op) (ht : Timed 0 ops) :
    ∃ (ft : Ft) (outs : List Out) (vars : List Cmd.Opt) (n : Nat) (name : List Char) (m : Nat), run s.table ops = .ok (ft, outs) ∧ outs.length = ops.length ∧
      Cmd.parseOrDie (if flow then Cmd.flowLbOpts else Cmd.lbOpts) argv = .ok (vars, n) ∧ Cmd.valueOf vars "tun".toList = some name ∧ e.dev.mtuOf (ifName name) = some (m : Int) ∧
      ∀ now k id len nok rc o, ((Op.frag now k id len nok rc, o) : Op × Out) ∈ ops.zip outs → o.rc = 1 → len ≤ m := by
  obtain ⟨vars, n, hp, -, h1, h2⟩ := C77_started flow e argv s h
  cases hn : Cmd.valueOf vars "tun".toList with
  | none => rw [(h1 hn).1] at hi; cases hi
  | some name =>
    obtain ⟨_, m, _, _, _, hm, hle⟩ := h2 name hn
    have hc := Frag.create_finv (hsize := s.hsize) (mb := s.buckets) (mf := s.frags) (mtu := s.mtu) (t := s.ttl) (reass := s.reass.isSome) hs
    obtain ⟨ft, outs, hr, hl, _⟩ := Frag.run_spec ops hc ht
    refine ⟨ft, outs, vars, n, name, m, hr, hl, hp, hn, hm, ?_⟩
    intro now k id len nok rc o ho hrc
    exact Nat.le_trans (run_fits ops hc ht hr now k id len nok rc o ho hrc) hle

example : ∃ s, startArgv false stEnv (["lb", "--tun=nfqlb0"].map String.toList) = .ok s ∧ s.inject = some 5 ∧ 0 < s.hsize ∧
    (match run s.table [Op.frag 5 stKey 1 1000 true 1] with | .ok (_, outs) => outs == [⟨1, none, []⟩] | _ => false) = true := by
  refine ⟨⟨-1, -1, 0, 1, false, 1500, some 5, 500, 500, 100, 200, none, 1024, [2]⟩, by decide +kernel, rfl, by decide, ?_⟩
  decide +kernel

/-- **C77, partial.** Whatever the command line is, the program ends or starts without undefined behaviour if the options are `Sized`. Missing: other sizes, see `C77_violated`. -/
theorem C77_safe_partial (flow : Bool) (e : Env) (argv : List (List Char))
    (hz : ∀ vars n, Cmd.parseOrDie (if flow then Cmd.flowLbOpts else Cmd.lbOpts) argv = .ok (vars, n) → Sized e vars) :
    startArgv flow e argv = .die ∨ ∃ s, startArgv flow e argv = .ok s := by
  have hc : ∃ c ∈ Cmd.commands, c.opts = (if flow then Cmd.flowLbOpts else Cmd.lbOpts) ∧ ∀ name ∈ startUses flow, name.toList ∈ c.uses := by
    cases flow <;> decide +kernel
  obtain ⟨c, hc1, hc2, hc3⟩ := hc
  rcases C75_commands c hc1 argv with h | ⟨vars, n, h, hv⟩
  · left
    unfold startArgv
    rw [← hc2, h, Res.die_bind]
  rw [hc2] at h
  have hs := start_cases flow e vars (fun name hn => hv name.toList (hc3 name hn)) (hz vars n h)
  unfold startArgv
  rw [h, Res.ok_bind]
  exact hs

/-- The default values are `Sized`. -/
example : ∃ vars n, Cmd.parseOrDie Cmd.flowLbOpts (["flowlb", "--tun=nfqlb0"].map String.toList) = .ok (vars, n) ∧ Sized stEnv vars := by
  have h : (match Cmd.parseOrDie Cmd.flowLbOpts (["flowlb", "--tun=nfqlb0"].map String.toList) with
    | .ok (vars, _) => decide (Cmd.valueOf vars "tun".toList = some "nfqlb0".toList ∧ Cmd.valueOf vars "ft_size".toList = some (Nat.toDigits 10 500) ∧ Cmd.valueOf vars "ft_buckets".toList = some (Nat.toDigits 10 500) ∧
        Cmd.valueOf vars "ft_frag".toList = some (Nat.toDigits 10 100) ∧ Cmd.valueOf vars "mtu".toList = some (Nat.toDigits 10 1500) ∧ Cmd.valueOf vars "reassembler".toList = some (Nat.toDigits 10 0))
    | _ => false) = true := by decide +kernel
  split at h
  · rename_i vars n e
    obtain ⟨h1, h2, h3, h4, h5, h6⟩ := of_decide_eq_true h
    refine ⟨vars, n, e, ?_, 500, 500, 100, 1500, 0, ⟨h2, by decide⟩, ⟨h3, by decide⟩, ⟨h4, by decide⟩, ⟨h5, by decide⟩, ⟨h6, by decide⟩, by decide, by decide, by decide, by decide⟩
    intro name hn
    rw [h1] at hn
    cases hn
    decide
  · cases h

/-- **C77 fails for some numbers**, which are accepted: with `--ft_size=0` the program starts and the first fragment is a division by zero; with 2900000 fragments of 1500 bytes the size of the memory is computed with 32 bits, and
the items are written outside of it. -/
theorem C77_violated :
    (∃ s, startArgv false stEnv (["lb", "--ft_size=0"].map String.toList) = .ok s ∧ run s.table [Op.frag 5 stKey 1 1000 true 1] = .ub) ∧
    startArgv false stEnv (["lb", "--tun=nfqlb0", "--ft_frag=2900000"].map String.toList) = .ub := by
  refine ⟨⟨⟨-1, -1, 0, 1, false, 1500, none, 0, 500, 0, 200, none, 1024, [2]⟩, by decide +kernel, ?_⟩, by decide +kernel⟩
  rfl

/-! ### C78 -/

/-- **C78, partial.** For a name of at most 15 characters: the request that makes the device and the one for its mtu get the same name, with NUL at the end. If the device can not be made, no descriptor stays open; if it is made,
exactly its descriptor is open after the request for the mtu, provided that this succeeds or there is no socket for it. Missing: longer names, and a request for the mtu that fails. -/
theorem C78_tun_partial (k : Dev) (name : List Char) (hl : name.length ≤ 15) (fds : List Nat) :
    strncpyName name = ifName name ∧ (ifName name).length = 16 ∧ (ifName name)[15]? = some '\x00' ∧
    ((k.opened = none ∨ k.setIff (ifName name) = false) → tunAlloc k (some name) fds = (-1, fds)) ∧
    (∀ fd, k.opened = some fd → k.setIff (ifName name) = true → tunAlloc k (some name) fds = ((fd : Int), fd :: fds)) ∧
    (∀ m, k.socket ≠ none → k.mtuOf (ifName name) = some m → getMtu k name fds = .ok (m, fds)) ∧
    (k.socket = none → getMtu k name fds = .ok (-1, fds)) := by
  have hname : strncpyName name = ifName name := by
    unfold strncpyName ifName ifNameSize
    rw [List.take_append, List.take_of_length_le (by omega), List.take_replicate]
    congr 2
    omega
  refine ⟨hname, ?_, ?_, ?_, ?_, ?_, ?_⟩
  · unfold ifName; simp; omega
  · unfold ifName
    rw [List.getElem?_append_right (by omega), List.getElem?_replicate, if_pos (by omega)]
  · intro h
    unfold tunAlloc
    dsimp only
    cases ho : k.opened with
    | none => rfl
    | some fd =>
      rcases h with h | h
      · rw [ho] at h; cases h
      · dsimp only
        rw [hname, if_pos h, List.erase_cons_head]
  · intro fd ho hs
    unfold tunAlloc
    dsimp only
    rw [ho]
    dsimp only
    rw [hname, hs, if_neg (by decide)]
  · intro m hk hm
    unfold getMtu
    cases hs : k.socket with
    | none => exact absurd hs hk
    | some fd =>
      dsimp only
      rw [if_neg (by unfold ifNameSize; omega)]
      have : k.mtuOf (name ++ List.replicate (ifNameSize - name.length) '\x00') = some m := hm
      rw [this]
      dsimp only
      rw [List.erase_cons_head]
  · intro hk
    unfold getMtu
    rw [hk]

example : "nfqlb0".toList.length ≤ 15 ∧ tunAlloc stEnv.dev (some "nfqlb0".toList) [] = (5, [5]) ∧ getMtu stEnv.dev "nfqlb0".toList [5] = .ok (1500, [5]) := by decide +kernel

/-- **C78.** For every name and every answer of the kernel, making the device leaves its descriptor open, and no other, or nothing. -/
theorem C78_alloc (k : Dev) (name : Option (List Char)) (fds : List Nat) : tunAlloc k name fds = (-1, fds) ∨ ∃ fd : Nat, k.opened = some fd ∧ tunAlloc k name fds = ((fd : Int), fd :: fds) := by
  unfold tunAlloc
  cases name with
  | none => exact Or.inl rfl
  | some name =>
    cases ho : k.opened with
    | none => exact Or.inl rfl
    | some fd =>
      dsimp only
      by_cases h : k.setIff (strncpyName name) = false
      · rw [if_pos h, List.erase_cons_head]; exact Or.inl rfl
      · rw [if_neg h]; exact Or.inr ⟨fd, rfl, rfl⟩

/-- **C78.** When reading the mtu goes wrong, exactly: it writes beyond the name of the request if and only if there is a socket and the name has 16 characters or more; and it leaves a descriptor open if and only if there is a socket,
the name is shorter, and the kernel refuses. In that case the mtu is -1. -/
theorem C78_mtu_exact (k : Dev) (name : List Char) (fds : List Nat) :
    (getMtu k name fds = .ub ↔ k.socket ≠ none ∧ 16 ≤ name.length) ∧
    (∀ v fds', getMtu k name fds = .ok (v, fds') → (fds' ≠ fds ↔ k.socket ≠ none ∧ name.length ≤ 15 ∧ k.mtuOf (ifName name) = none)) ∧
    (∀ v fds', getMtu k name fds = .ok (v, fds') → fds' ≠ fds → v = -1 ∧ ∃ fd, k.socket = some fd ∧ fds' = fd :: fds) := by
  unfold getMtu
  cases hk : k.socket with
  | none =>
    refine ⟨⟨fun h => (by cases h), fun h => absurd rfl h.1⟩, ?_, ?_⟩
    · intro v fds' h
      obtain ⟨_, rfl⟩ := Prod.mk.inj (Res.ok.inj h)
      exact ⟨fun h => absurd rfl h, fun h => absurd rfl h.1⟩
    · intro v fds' h hne
      obtain ⟨_, rfl⟩ := Prod.mk.inj (Res.ok.inj h)
      exact absurd rfl hne
  | some fd =>
    dsimp only
    by_cases hl : 16 ≤ name.length
    · rw [if_pos (by unfold ifNameSize; omega)]
      refine ⟨⟨fun _ => ⟨by simp, hl⟩, fun _ => rfl⟩, fun v fds' h => (by cases h), fun v fds' h => (by cases h)⟩
    · rw [if_neg (by unfold ifNameSize; omega)]
      have e : name ++ List.replicate (ifNameSize - name.length) '\x00' = ifName name := rfl
      rw [e]
      cases hm : k.mtuOf (ifName name) with
      | none =>
        dsimp only
        refine ⟨⟨fun h => (by cases h), fun h => absurd h.2 hl⟩, ?_, ?_⟩
        · intro v fds' h
          obtain ⟨_, rfl⟩ := Prod.mk.inj (Res.ok.inj h)
          exact ⟨fun _ => ⟨by simp, by omega, rfl⟩, fun _ h => by have := congrArg List.length h; simp at this⟩
        · intro v fds' h _
          obtain ⟨rfl, rfl⟩ := Prod.mk.inj (Res.ok.inj h)
          exact ⟨rfl, fd, rfl, rfl⟩
      | some m =>
        dsimp only
        rw [List.erase_cons_head]
        refine ⟨⟨fun h => (by cases h), fun h => absurd h.2 hl⟩, ?_, ?_⟩
        · intro v fds' h
          obtain ⟨_, rfl⟩ := Prod.mk.inj (Res.ok.inj h)
          exact ⟨fun h => absurd rfl h, fun h => absurd h.2.2 (by simp)⟩
        · intro v fds' h hne
          obtain ⟨_, rfl⟩ := Prod.mk.inj (Res.ok.inj h)
          exact absurd rfl hne

/-- **C78 fails** for a longer name: the device is made, with the first 16 characters as its name, and then the whole name is copied to a field of 16 bytes. And when the request for the mtu fails, the descriptor of the socket
stays open. -/
theorem C78_violated : (∃ k name, tunAlloc k (some name) [] = (5, [5]) ∧ getMtu k name [5] = .ub) ∧ (∃ k name, name.length ≤ 15 ∧ getMtu k name [5] = .ok (-1, [6, 5])) :=
  ⟨⟨stEnv.dev, "nfqlb-device-0123".toList, by decide +kernel, by decide +kernel⟩, ⟨stEnv.dev, "eth0".toList, by decide, by decide +kernel⟩⟩

end Nfqlb.Props
