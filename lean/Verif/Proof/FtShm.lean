import Verif.Spec.FtShm

/-! Lemmas for C101. -/

set_option autoImplicit false

namespace Nfqlb.FtShm

open Nfqlb Nfqlb.Report Nfqlb.Spec.FtShm

/-- The sizes are those of the table. -/
def Sizes (st : FragStats) (c : Config) : Prop := st.size = c.size ∧ st.ttlNanos = c.ttlNanos ∧ st.mtu = c.mtu ∧ st.bucketsMax = c.bucketsMax ∧ st.fragsMax = c.fragsMax

theorem bump_sizes {st : FragStats} {c : Config} (h : Sizes st c) (k : Counter) : Sizes (bump st k) c := by cases k <;> exact h

theorem bump_value (st : FragStats) (k j : Counter) : value (bump st k) j = if k = j then (value st j + 1) % 2 ^ 32 else value st j := by
  cases k <;> cases j <;> rfl

/-- The process has this name for its memory. -/
def Uses (x : Proc) (name : List Char) (c : Config) : Prop := x = .opened name c ∨ x = .zeroed name c ∨ x = .running name c

structure Inv (all : List Ev) (s : Sys) : Prop where
  known : ∀ p n c, Uses (s.proc p) n c → Ev.start p n c ∈ all
  zeroed : ∀ p n c, s.proc p = .zeroed n c → ∃ st, s.mem n = some (some st)
  running : ∀ p n c, s.proc p = .running n c → ∃ st, s.mem n = some (some st) ∧ Sizes st c

theorem put_mem (s : Sys) (name n : List Char) (x : Option FragStats) : (s.put name x).mem n = if n = name then some x else s.mem n := rfl
theorem put_proc (s : Sys) (name : List Char) (x : Option FragStats) : (s.put name x).proc = s.proc := rfl
theorem go_mem (s : Sys) (p : Nat) (x : Proc) : (s.go p x).mem = s.mem := rfl
theorem go_proc (s : Sys) (p q : Nat) (x : Proc) : (s.go p x).proc q = if q = p then x else s.proc q := rfl

theorem inv_init (all : List Ev) : Inv all init := by
  refine ⟨?_, ?_, ?_⟩
  · rintro p n c (h | h | h) <;> cases h
  · intro p n c h; cases h
  · intro p n c h; cases h

/-- Two processes with the same name are one. -/
theorem same {all : List Ev} {s : Sys} (hp : Private all) (hi : Inv all s) {p q : Nat} {n : List Char} {c d : Config} (h : Uses (s.proc p) n c) (h' : Uses (s.proc q) n d) : p = q :=
  hp.1 p q n c d (hi.known p n c h) (hi.known q n d h')

/-- A step of process `p` that writes to its memory. -/
theorem inv_write {all : List Ev} {s : Sys} (hp : Private all) (hi : Inv all s) (p : Nat) (n : List Char) (c : Config) (x : Option FragStats) (y : Proc) (hst : Ev.start p n c ∈ all)
    (hy : Uses y n c) (hz : ∀ m d, y = .zeroed m d → ∃ st, x = some st) (hr : ∀ m d, y = .running m d → ∃ st, x = some st ∧ Sizes st d) : Inv all ((s.put n x).go p y) := by
  have name : ∀ m d, Uses y m d → m = n ∧ d = c := by
    intro m d h
    rcases hy with rfl | rfl | rfl <;> rcases h with h | h | h <;> cases h <;> exact ⟨rfl, rfl⟩
  have other : ∀ q m d, q ≠ p → Uses (s.proc q) m d → m ≠ n := by
    intro q m d hq h e
    subst e
    exact hq (hp.1 q p m d c (hi.known q m d h) hst)
  refine ⟨?_, ?_, ?_⟩
  · intro q m d h
    rw [go_proc] at h
    by_cases hq : q = p
    · rw [if_pos hq] at h
      obtain ⟨rfl, rfl⟩ := name m d h
      rw [hq]; exact hst
    · rw [if_neg hq] at h
      exact hi.known q m d h
  · intro q m d h
    rw [go_proc] at h
    rw [go_mem, put_mem]
    by_cases hq : q = p
    · rw [if_pos hq] at h
      obtain ⟨rfl, -⟩ := name m d (.inr (.inl h))
      obtain ⟨st, rfl⟩ := hz m d h
      exact ⟨st, by rw [if_pos rfl]⟩
    · rw [if_neg hq, ] at h
      rw [if_neg (other q m d hq (.inr (.inl h)))]
      exact hi.zeroed q m d h
  · intro q m d h
    rw [go_proc] at h
    rw [go_mem, put_mem]
    by_cases hq : q = p
    · rw [if_pos hq] at h
      obtain ⟨rfl, -⟩ := name m d (.inr (.inr h))
      obtain ⟨st, rfl, hs⟩ := hr m d h
      exact ⟨st, by rw [if_pos rfl], hs⟩
    · rw [if_neg hq] at h
      rw [if_neg (other q m d hq (.inr (.inr h)))]
      exact hi.running q m d h

theorem go_self (s : Sys) (p : Nat) : s.go p (s.proc p) = s := by
  unfold Sys.go
  congr 1
  funext q
  by_cases h : q = p
  · rw [if_pos h, h]
  · rw [if_neg h]

theorem step_inv {all : List Ev} {s : Sys} (hp : Private all) (hi : Inv all s) (e : Ev) (he : e ∈ all) : ∃ s', step s e = .ok s' ∧ Inv all s' := by
  cases e with
  | start p n c =>
    unfold step
    dsimp only
    cases hx : s.proc p with
    | idle => exact ⟨_, rfl, inv_write hp hi p n c none _ he (.inl rfl) (fun m d h => by cases h) (fun m d h => by cases h)⟩
    | _ => exact ⟨s, rfl, hi⟩
  | zero p =>
    unfold step
    dsimp only
    cases hx : s.proc p with
    | opened n c => exact ⟨_, rfl, inv_write hp hi p n c _ _ (hi.known p n c (.inl hx)) (.inr (.inl rfl)) (fun m d h => ⟨_, rfl⟩) (fun m d h => by cases h)⟩
    | _ => exact ⟨s, rfl, hi⟩
  | use p =>
    unfold step
    dsimp only
    cases hx : s.proc p with
    | zeroed n c =>
      obtain ⟨st, hm⟩ := hi.zeroed p n c hx
      dsimp only
      rw [hm]
      exact ⟨_, rfl, inv_write hp hi p n c _ _ (hi.known p n c (.inr (.inl hx))) (.inr (.inr rfl)) (fun m d h => by cases h) (fun m d h => by cases h; exact ⟨_, rfl, rfl, rfl, rfl, rfl, rfl⟩)⟩
    | _ => exact ⟨s, rfl, hi⟩
  | bucket p hash =>
    unfold step
    dsimp only
    cases hx : s.proc p with
    | running n c =>
      obtain ⟨st, hm, hs⟩ := hi.running p n c hx
      have hpos := hp.2 p n c (hi.known p n c (.inr (.inr hx)))
      dsimp only
      rw [hm]
      dsimp only
      rw [hs.1, if_neg (by omega), if_pos (Nat.mod_lt _ hpos)]
      exact ⟨s, rfl, hi⟩
    | _ => exact ⟨s, rfl, hi⟩
  | count p k =>
    unfold step
    dsimp only
    cases hx : s.proc p with
    | running n c =>
      obtain ⟨st, hm, hs⟩ := hi.running p n c hx
      dsimp only
      rw [hm]
      refine ⟨_, rfl, ?_⟩
      have h := inv_write hp hi p n c (some (bump st k)) (.running n c) (hi.known p n c (.inr (.inr hx))) (.inr (.inr rfl)) (fun m d h => by cases h) (fun m d h => by cases h; exact ⟨_, rfl, bump_sizes hs k⟩)
      have e : (s.put n (some (bump st k))).go p (.running n c) = s.put n (some (bump st k)) := by
        rw [← hx]
        exact go_self (s.put n (some (bump st k))) p
      rw [e] at h
      exact h
    | _ => exact ⟨s, rfl, hi⟩

theorem run_inv {all : List Ev} (hp : Private all) : ∀ (evs : List Ev) (s : Sys), Inv all s → (∀ e ∈ evs, e ∈ all) → ∃ s', run s evs = .ok s' ∧ Inv all s'
  | [], s, hi, _ => ⟨s, rfl, hi⟩
  | e :: evs, s, hi, h => by
    obtain ⟨s1, h1, i1⟩ := step_inv hp hi e (h e (by simp))
    obtain ⟨s2, h2, i2⟩ := run_inv hp evs s1 i1 (fun e he => h e (by simp [he]))
    exact ⟨s2, by rw [run, h1, Res.ok_bind, h2], i2⟩

/-- A step keeps a running process, and its memory changes by its own increments only. -/
theorem step_counts {all : List Ev} {s s' : Sys} (hp : Private all) (hi : Inv all s) (e : Ev) (he : e ∈ all) {p : Nat} {n : List Char} {c : Config} {st : FragStats} (hr : s.proc p = .running n c)
    (hm : s.mem n = some (some st)) (h : step s e = .ok s') :
    s'.proc p = .running n c ∧ ∃ st', s'.mem n = some (some st') ∧ ∀ k, value st' k = if e = .count p k then (value st k + 1) % 2 ^ 32 else value st k := by
  have hu : Uses (s.proc p) n c := .inr (.inr hr)
  have keep : ∀ {q : Nat} {m : List Char} {d : Config} (x : Option FragStats) (y : Proc), Ev.start q m d ∈ all → q ≠ p → ((s.put m x).go q y).proc p = .running n c ∧ ((s.put m x).go q y).mem n = some (some st) := by
    intro q m d x y hq hne
    refine ⟨by rw [go_proc, if_neg (fun e => hne e.symm)]; exact hr, ?_⟩
    rw [go_mem, put_mem, if_neg ?_]
    · exact hm
    · intro e
      subst e
      exact hne (hp.1 q p n d c hq (hi.known p n c hu))
  have same : s' = s → (∀ k, e ≠ .count p k) → s'.proc p = .running n c ∧ ∃ st', s'.mem n = some (some st') ∧ ∀ k, value st' k = if e = .count p k then (value st k + 1) % 2 ^ 32 else value st k := by
    intro h hn
    subst h
    exact ⟨hr, st, hm, fun k => by rw [if_neg (hn k)]⟩
  have wrote : ∀ {q : Nat} {m : List Char} {d : Config} (x : Option FragStats) (y : Proc), Ev.start q m d ∈ all → q ≠ p → s' = (s.put m x).go q y → (∀ k, e ≠ .count p k) →
      s'.proc p = .running n c ∧ ∃ st', s'.mem n = some (some st') ∧ ∀ k, value st' k = if e = .count p k then (value st k + 1) % 2 ^ 32 else value st k := by
    intro q m d x y h1 h2 h3 h4
    subst h3
    exact ⟨(keep x y h1 h2).1, st, (keep x y h1 h2).2, fun k => by rw [if_neg (h4 k)]⟩
  cases e with
  | start q m d =>
    unfold step at h
    dsimp only at h
    cases hx : s.proc q with
    | idle =>
      rw [hx] at h
      exact wrote none _ he (fun e => by rw [e, hr] at hx; cases hx) (Res.ok.inj h).symm (fun k => by simp)
    | _ => rw [hx] at h; exact same (Res.ok.inj h).symm (fun k => by simp)
  | zero q =>
    unfold step at h
    dsimp only at h
    cases hx : s.proc q with
    | opened m d =>
      rw [hx] at h
      exact wrote _ _ (hi.known q m d (.inl hx)) (fun e => by rw [e, hr] at hx; cases hx) (Res.ok.inj h).symm (fun k => by simp)
    | _ => rw [hx] at h; exact same (Res.ok.inj h).symm (fun k => by simp)
  | use q =>
    unfold step at h
    dsimp only at h
    cases hx : s.proc q with
    | zeroed m d =>
      rw [hx] at h
      dsimp only at h
      obtain ⟨st2, hm2⟩ := hi.zeroed q m d hx
      rw [hm2] at h
      exact wrote _ _ (hi.known q m d (.inr (.inl hx))) (fun e => by rw [e, hr] at hx; cases hx) (Res.ok.inj h).symm (fun k => by simp)
    | _ => rw [hx] at h; exact same (Res.ok.inj h).symm (fun k => by simp)
  | bucket q hash =>
    obtain ⟨s2, h2, -⟩ := step_inv hp hi (.bucket q hash) he
    refine same ?_ (fun k => by simp)
    unfold step at h
    dsimp only at h
    split at h
    · split at h
      · split at h
        · cases h
        · split at h
          · exact (Res.ok.inj h).symm
          · cases h
      · cases h
    · exact (Res.ok.inj h).symm
  | count q j =>
    unfold step at h
    dsimp only at h
    by_cases hq : q = p
    · subst hq
      rw [hr] at h
      dsimp only at h
      rw [hm] at h
      have := (Res.ok.inj h).symm
      subst this
      refine ⟨hr, bump st j, by rw [put_mem, if_pos rfl], fun k => ?_⟩
      rw [bump_value]
      by_cases hj : j = k
      · rw [if_pos hj, if_pos (by rw [hj])]
      · rw [if_neg hj, if_neg (by simpa using hj)]
    · have hne : ∀ k, Ev.count q j ≠ Ev.count p k := by intro k e; cases e; exact hq rfl
      cases hx : s.proc q with
      | running m d =>
        rw [hx] at h
        dsimp only at h
        obtain ⟨st2, hm2, -⟩ := hi.running q m d hx
        rw [hm2] at h
        have hs' := (Res.ok.inj h).symm
        have e : (s.put m (some (bump st2 j))).go q (.running m d) = s.put m (some (bump st2 j)) := by
          rw [← hx]; exact go_self (s.put m (some (bump st2 j))) q
        exact wrote (some (bump st2 j)) (.running m d) (hi.known q m d (.inr (.inr hx))) hq (by rw [e]; exact hs') hne
      | _ => rw [hx] at h; exact same (Res.ok.inj h).symm hne

theorem run_counts {all : List Ev} (hp : Private all) {p : Nat} {n : List Char} {c : Config} : ∀ (evs : List Ev) (s s' : Sys) (st : FragStats), Inv all s → (∀ e ∈ evs, e ∈ all) → s.proc p = .running n c →
    s.mem n = some (some st) → run s evs = .ok s' →
    s'.proc p = .running n c ∧ ∃ st', s'.mem n = some (some st') ∧ ∀ k, value st' k % 2 ^ 32 = (value st k + evs.count (.count p k)) % 2 ^ 32 ∧ (value st k < 2 ^ 32 → value st' k < 2 ^ 32)
  | [], s, s', st, _, _, hr, hm, h => by
    cases h
    exact ⟨hr, st, hm, fun k => ⟨by simp, fun h => h⟩⟩
  | e :: evs, s, s', st, hi, ha, hr, hm, h => by
    obtain ⟨s1, h1, i1⟩ := step_inv hp hi e (ha e (by simp))
    rw [run, h1, Res.ok_bind] at h
    obtain ⟨r1, st1, m1, v1⟩ := step_counts hp hi e (ha e (by simp)) hr hm h1
    obtain ⟨r2, st2, m2, v2⟩ := run_counts hp evs s1 s' st1 i1 (fun e he => ha e (by simp [he])) r1 m1 h
    refine ⟨r2, st2, m2, fun k => ?_⟩
    obtain ⟨w1, w2⟩ := v2 k
    have w := v1 k
    rw [List.count_cons]
    by_cases hk : e = .count p k
    · rw [if_pos hk] at w
      rw [w] at w1 w2
      rw [if_pos (by simp [hk])]
      exact ⟨by omega, fun _ => w2 (by omega)⟩
    · rw [if_neg hk] at w
      rw [w] at w1 w2
      rw [if_neg (by simp [hk])]
      exact ⟨by omega, w2⟩

end Nfqlb.FtShm
