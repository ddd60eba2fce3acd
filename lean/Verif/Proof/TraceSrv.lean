import Verif.Spec.TraceSrv

/-! Invariants of the trace server. -/

set_option autoImplicit false

namespace Nfqlb.TraceSrv

open Nfqlb Nfqlb.Spec.TSrv

/-- The places where there is a connection. -/
def live : Pc → Bool
  | .announce | .ignore | .reading | .test | .clear | .fclose => true
  | _ => false

/-- The places where SIGPIPE is ignored. -/
def igns : Pc → Bool
  | .reading | .test | .clear | .fclose | .close | .dfl => true
  | _ => false

/-- What holds whatever happens. -/
structure Inv (s : St) : Prop where
  ign : s.ign = igns s.pc
  file : live s.pc = true → ∃ c, s.file = .conn c s.cd ∧ c ∈ s.used ∧ c ∉ s.queue
  dead : live s.pc = false → ∀ c cd, s.file ≠ .conn c cd
  fd : live s.pc = true → s.fds s.cd = some .trace
  nodup : s.queue.Nodup
  sub : ∀ c ∈ s.queue, c ∈ s.used

theorem inv_start : Inv start where
  ign := rfl
  file := fun h => by cases h
  dead := fun _ c cd h => by cases h
  fd := fun h => by cases h
  nodup := List.nodup_nil
  sub := fun c h => by cases h

theorem tracef_ok {s s' : St} {t : List Char} (h : tracef s t = .ok s') :
    s' = s ∨ ∃ c cd, s.file = .conn c cd ∧ c ∉ s.gone ∧ s' = { s with got := s.got ++ [(c, t)] } := by
  unfold tracef at h
  cases hf : s.file with
  | null => rw [hf] at h; cases h; exact .inl rfl
  | stderr => rw [hf] at h; cases h; exact .inl rfl
  | conn c cd =>
    rw [hf] at h
    dsimp only at h
    split at h
    · split at h
      · cases h; exact .inl rfl
      · cases h
    · rename_i hg
      cases h; exact .inr ⟨c, cd, rfl, hg, rfl⟩

theorem inv_got {s : St} (hi : Inv s) (g : List (Nat × List Char)) : Inv { s with got := g } := ⟨hi.ign, hi.file, hi.dead, hi.fd, hi.nodup, hi.sub⟩

theorem inv_tracef {s s' : St} {t : List Char} (hi : Inv s) (h : tracef s t = .ok s') : Inv s' ∧ s'.pc = s.pc := by
  rcases tracef_ok h with rfl | ⟨c, cd, _, _, rfl⟩
  · exact ⟨hi, rfl⟩
  · exact ⟨inv_got hi _, rfl⟩

theorem bind_ok' {α β : Type} {x : Res α} {f : α → Res β} {y : β} (h : (x >>= f) = .ok y) : ∃ a, x = .ok a ∧ f a = .ok y := by
  cases x with
  | ok a => exact ⟨a, rfl, h⟩
  | die => cases h
  | ub => cases h
  | hang => cases h

/-- The place moves on between two places with a connection. -/
theorem inv_move {s : St} (hi : Inv s) (pc : Pc) (ig : Bool) (hl : live pc = live s.pc) (hg : ig = igns pc) : Inv { s with pc := pc, ign := ig } where
  ign := hg
  file := fun h => hi.file (by rw [← hl]; exact h)
  dead := fun h => hi.dead (by rw [← hl]; exact h)
  fd := fun h => hi.fd (by rw [← hl]; exact h)
  nodup := hi.nodup
  sub := hi.sub

theorem inv_serve {s s' : St} {fd : Nat} (hi : Inv s) (h : serve s fd = .ok s') : Inv s' := by
  unfold serve at h
  have hign := hi.ign
  cases hp : s.pc <;> rw [hp] at h hign <;> dsimp only at h
  · cases hq : s.queue with
    | nil => rw [hq] at h; cases h; exact hi
    | cons c q =>
      cases hf : s.fds fd with
      | some o => rw [hq, hf] at h; cases h; exact hi
      | none =>
        rw [hq, hf] at h
        cases h
        have hn := hi.nodup
        rw [hq] at hn
        refine ⟨hign, fun _ => ⟨c, rfl, hi.sub c (by rw [hq]; exact List.mem_cons_self), (List.nodup_cons.1 hn).1⟩, fun h => (by cases h), fun _ => ?_, (List.nodup_cons.1 hn).2, fun d hd => hi.sub d ?_⟩
        · show (if fd = fd then some Owner.trace else s.fds fd) = _
          rw [if_pos rfl]
        · rw [hq]; exact List.mem_cons_of_mem _ hd
  · obtain ⟨s1, h1, h⟩ := bind_ok' h
    obtain ⟨i1, p1⟩ := inv_tracef hi h1
    cases h
    exact inv_move i1 .ignore s1.ign (by rw [p1, hp]; rfl) (by rw [i1.ign, p1, hp]; rfl)
  · cases h; exact inv_move hi .reading true (by rw [hp]; rfl) rfl
  · split at h
    · split at h
      · cases h; exact inv_move hi .test s.ign (by rw [hp]; rfl) hign
      · cases h; exact hi
    · cases h
  · obtain ⟨s1, h1, h⟩ := bind_ok' h
    obtain ⟨i1, p1⟩ := inv_tracef hi h1
    cases h
    exact inv_move i1 .clear s1.ign (by rw [p1, hp]; rfl) (by rw [i1.ign, p1, hp]; rfl)
  · cases h
    have := inv_move hi .fclose s.ign (by rw [hp]; rfl) hign
    exact ⟨this.ign, this.file, this.dead, this.fd, this.nodup, this.sub⟩
  · cases hf : s.file with
    | null => rw [hf] at h; cases h
    | stderr => rw [hf] at h; cases h
    | conn c cd =>
      rw [hf] at h
      cases h
      exact ⟨hign, fun h => (by cases h), fun _ c cd h => (by cases h), fun h => (by cases h), hi.nodup, hi.sub⟩
  · cases h
    exact ⟨hign, fun h => (by cases h), fun _ => hi.dead (by rw [hp]; rfl), fun h => (by cases h), hi.nodup, hi.sub⟩
  · cases h
    exact inv_move hi .accept false (by rw [hp]; rfl) rfl

theorem inv_step {s s' : St} (e : Ev) (hi : Inv s) (h : step s e = .ok s') : Inv s' := by
  cases e with
  | setMask m => cases h; exact ⟨hi.ign, hi.file, hi.dead, hi.fd, hi.nodup, hi.sub⟩
  | connect c =>
    simp only [step] at h
    split at h
    · cases h; exact hi
    · rename_i hc
      cases h
      refine ⟨hi.ign, fun h => ?_, hi.dead, hi.fd, ?_, ?_⟩
      · obtain ⟨d, h1, h2, h3⟩ := hi.file h
        refine ⟨d, h1, List.mem_cons_of_mem _ h2, fun h4 => ?_⟩
        rcases List.mem_append.1 h4 with h5 | h5
        · exact h3 h5
        · rw [List.mem_singleton] at h5; subst h5; exact hc h2
      · refine List.nodup_append.2 ⟨hi.nodup, (by simp), fun a ha b hb hab => ?_⟩
        rw [List.mem_singleton] at hb
        subst hab; subst hb
        exact hc (hi.sub _ ha)
      · intro d hd
        rcases List.mem_append.1 hd with h5 | h5
        · exact List.mem_cons_of_mem _ (hi.sub _ h5)
        · rw [List.mem_singleton] at h5; subst h5; exact List.mem_cons_self
  | leave c =>
    simp only [step] at h
    split at h <;> cases h
    · exact ⟨hi.ign, hi.file, hi.dead, hi.fd, hi.nodup, hi.sub⟩
    · exact hi
  | write b t =>
    simp only [step] at h
    split at h
    · exact (inv_tracef hi h).1
    · cases h; exact hi
  | late t => exact (inv_tracef hi h).1
  | openFd fd id =>
    simp only [step] at h
    split at h <;> cases h
    · rename_i hf
      refine ⟨hi.ign, hi.file, hi.dead, fun h => ?_, hi.nodup, hi.sub⟩
      have h1 := hi.fd h
      show (if s.cd = fd then _ else s.fds s.cd) = _
      rw [if_neg, h1]
      intro h2
      rw [h2, hf] at h1
      cases h1
    · exact hi
  | closeFd fd id =>
    simp only [step] at h
    split at h <;> cases h
    · rename_i hf
      refine ⟨hi.ign, hi.file, hi.dead, fun h => ?_, hi.nodup, hi.sub⟩
      have h1 := hi.fd h
      show (if s.cd = fd then _ else s.fds s.cd) = _
      rw [if_neg, h1]
      intro h2
      rw [h2, hf] at h1
      cases h1
    · exact hi
  | serve fd => exact inv_serve hi h

theorem serve_same {s s' : St} {fd : Nat} (h : serve s fd = .ok s') : s'.used = s.used ∧ s'.gone = s.gone := by
  unfold serve at h
  cases hc : s.pc <;> rw [hc] at h <;> dsimp only at h
  · split at h <;> cases h <;> exact ⟨rfl, rfl⟩
  · obtain ⟨s1, h1, h⟩ := bind_ok' h
    cases h
    rcases tracef_ok h1 with rfl | ⟨c, cd, _, _, rfl⟩ <;> exact ⟨rfl, rfl⟩
  · cases h; exact ⟨rfl, rfl⟩
  · split at h
    · split at h <;> cases h <;> exact ⟨rfl, rfl⟩
    · cases h
  · obtain ⟨s1, h1, h⟩ := bind_ok' h
    cases h
    rcases tracef_ok h1 with rfl | ⟨c, cd, _, _, rfl⟩ <;> exact ⟨rfl, rfl⟩
  · cases h; exact ⟨rfl, rfl⟩
  · split at h <;> cases h <;> exact ⟨rfl, rfl⟩
  · cases h; exact ⟨rfl, rfl⟩
  · cases h; exact ⟨rfl, rfl⟩

theorem gone_step {s s' : St} (e : Ev) (hi : ∀ c ∈ s.gone, c ∈ s.used) (h : step s e = .ok s') : ∀ c ∈ s'.gone, c ∈ s'.used := by
  cases e with
  | setMask m => cases h; exact hi
  | connect c =>
    simp only [step] at h
    split at h <;> cases h
    · exact hi
    · exact fun d hd => List.mem_cons_of_mem _ (hi d hd)
  | leave c =>
    simp only [step] at h
    split at h <;> cases h
    · rename_i hc
      intro d hd
      rcases List.mem_cons.1 hd with rfl | h1
      · exact hc
      · exact hi d h1
    · exact hi
  | write b t =>
    simp only [step] at h
    split at h
    · rcases tracef_ok h with rfl | ⟨c, cd, _, _, rfl⟩ <;> exact hi
    · cases h; exact hi
  | late t => rcases tracef_ok h with rfl | ⟨c, cd, _, _, rfl⟩ <;> exact hi
  | openFd fd id =>
    simp only [step] at h
    split at h <;> cases h <;> exact hi
  | closeFd fd id =>
    simp only [step] at h
    split at h <;> cases h <;> exact hi
  | serve fd => obtain ⟨h1, h2⟩ := serve_same h; rw [h1, h2]; exact hi

theorem hist_gone {G : St → Ev → Prop} {s : St} (h : Hist G s) : ∀ c ∈ s.gone, c ∈ s.used := by
  induction h with
  | start => exact fun c h => (by cases h)
  | step e _ _ h ih => exact gone_step e ih h

theorem hist_inv {G : St → Ev → Prop} {s : St} (h : Hist G s) : Inv s := by
  induction h with
  | start => exact inv_start
  | step e _ _ h ih => exact inv_step e ih h

/-! ### C71 -/

/-- What holds if clients are polite. -/
structure PInv (s : St) : Prop where
  inv : Inv s
  here : ∀ c ∈ s.queue, c ∉ s.gone
  ign : ∀ c cd, s.file = .conn c cd → c ∈ s.gone → s.ign = true
  sub : ∀ c ∈ s.gone, c ∈ s.used

theorem tracef_total {s : St} (hp : PInv s) (t : List Char) : ∃ s', tracef s t = .ok s' := by
  unfold tracef
  cases hf : s.file with
  | null => exact ⟨_, rfl⟩
  | stderr => exact ⟨_, rfl⟩
  | conn c cd =>
    dsimp only
    split
    · rename_i hg; rw [if_pos (hp.ign c cd hf hg)]; exact ⟨_, rfl⟩
    · exact ⟨_, rfl⟩

theorem serve_total {s : St} (hp : PInv s) (fd : Nat) : ∃ s', serve s fd = .ok s' := by
  unfold serve
  cases hc : s.pc <;> dsimp only
  · split <;> exact ⟨_, rfl⟩
  · obtain ⟨s1, h1⟩ := tracef_total hp (active s.mask)
    rw [h1]; exact ⟨_, rfl⟩
  · exact ⟨_, rfl⟩
  · obtain ⟨c, h1, _⟩ := hp.inv.file (by rw [hc]; rfl)
    rw [h1]; exact ⟨_, rfl⟩
  · obtain ⟨s1, h1⟩ := tracef_total hp "SIGPIPE TEST\n".toList
    rw [h1]; exact ⟨_, rfl⟩
  · exact ⟨_, rfl⟩
  · obtain ⟨c, h1, _⟩ := hp.inv.file (by rw [hc]; rfl)
    rw [h1]; exact ⟨_, rfl⟩
  · exact ⟨_, rfl⟩
  · exact ⟨_, rfl⟩

theorem step_total {s : St} (hp : PInv s) (e : Ev) : ∃ s', step s e = .ok s' := by
  cases e with
  | setMask m => exact ⟨_, rfl⟩
  | connect c => exact ⟨_, rfl⟩
  | leave c => exact ⟨_, rfl⟩
  | write b t =>
    simp only [step]
    split
    · exact tracef_total hp t
    · exact ⟨_, rfl⟩
  | late t => exact tracef_total hp t
  | openFd fd id => exact ⟨_, rfl⟩
  | closeFd fd id => exact ⟨_, rfl⟩
  | serve fd => exact serve_total hp fd

theorem tracef_same {s s' : St} {t : List Char} (h : tracef s t = .ok s') : ∃ g, s' = { s with got := g } := by
  rcases tracef_ok h with rfl | ⟨c, cd, _, _, rfl⟩
  · exact ⟨s'.got, rfl⟩
  · exact ⟨_, rfl⟩

theorem pinv_step {s s' : St} (e : Ev) (hp : PInv s) (hg : Polite s e) (h : step s e = .ok s') : PInv s' := by
  have hi' := inv_step e hp.inv h
  cases e with
  | setMask m => cases h; exact ⟨hi', hp.here, hp.ign, hp.sub⟩
  | connect c =>
    simp only [step] at h
    split at h
    · cases h; exact hp
    · rename_i hc
      cases h
      refine ⟨hi', fun d hd => ?_, hp.ign, fun d hd => List.mem_cons_of_mem _ (hp.sub d hd)⟩
      rcases List.mem_append.1 hd with h5 | h5
      · exact hp.here d h5
      · rw [List.mem_singleton] at h5; subst h5; exact fun h6 => hc (hp.sub _ h6)
  | leave c =>
    obtain ⟨⟨cd, hf⟩, hpc⟩ := hg
    have hig : s.ign = true := by rw [hp.inv.ign, hpc]; rfl
    simp only [step] at h
    split at h <;> cases h
    · rename_i hu
      refine ⟨hi', fun d hd h6 => ?_, fun _ _ _ _ => hig, fun d hd => ?_⟩
      · rcases List.mem_cons.1 h6 with h7 | h7
        · subst h7
          obtain ⟨c', h1, _, h3⟩ := hp.inv.file (by rw [hpc]; rfl)
          rw [hf] at h1
          cases h1
          exact h3 hd
        · exact hp.here d hd h7
      · rcases List.mem_cons.1 hd with h7 | h7
        · subst h7; exact hu
        · exact hp.sub d h7
    · exact hp
  | write b t =>
    simp only [step] at h
    split at h
    · obtain ⟨g, rfl⟩ := tracef_same h; exact ⟨hi', hp.here, hp.ign, hp.sub⟩
    · cases h; exact hp
  | late t => obtain ⟨g, rfl⟩ := tracef_same h; exact ⟨hi', hp.here, hp.ign, hp.sub⟩
  | openFd fd id =>
    simp only [step] at h
    split at h <;> cases h
    · exact ⟨hi', hp.here, hp.ign, hp.sub⟩
    · exact hp
  | closeFd fd id =>
    simp only [step] at h
    split at h <;> cases h
    · exact ⟨hi', hp.here, hp.ign, hp.sub⟩
    · exact hp
  | serve fd =>
    simp only [step, serve] at h
    cases hc : s.pc <;> rw [hc] at h <;> dsimp only at h
    · cases hq : s.queue with
      | nil => rw [hq] at h; cases h; exact hp
      | cons c q =>
        cases hf : s.fds fd with
        | some o => rw [hq, hf] at h; cases h; exact hp
        | none =>
          rw [hq, hf] at h
          cases h
          refine ⟨hi', fun d hd => hp.here d ?_, fun d cd hd hgo => ?_, hp.sub⟩
          · rw [hq]; exact List.mem_cons_of_mem _ hd
          · cases hd
            exact absurd hgo (hp.here c (by rw [hq]; exact List.mem_cons_self))
    · obtain ⟨s1, h1, h⟩ := bind_ok' h
      obtain ⟨g, rfl⟩ := tracef_same h1
      cases h; exact ⟨hi', hp.here, hp.ign, hp.sub⟩
    · cases h; exact ⟨hi', hp.here, fun _ _ _ _ => rfl, hp.sub⟩
    · split at h
      · split at h
        · cases h; exact ⟨hi', hp.here, hp.ign, hp.sub⟩
        · cases h; exact hp
      · cases h
    · obtain ⟨s1, h1, h⟩ := bind_ok' h
      obtain ⟨g, rfl⟩ := tracef_same h1
      cases h; exact ⟨hi', hp.here, hp.ign, hp.sub⟩
    · cases h; exact ⟨hi', hp.here, hp.ign, hp.sub⟩
    · cases hf : s.file with
      | null => rw [hf] at h; cases h
      | stderr => rw [hf] at h; cases h
      | conn c cd =>
        rw [hf] at h
        cases h; exact ⟨hi', hp.here, fun _ _ h _ => (by cases h), hp.sub⟩
    · cases h; exact ⟨hi', hp.here, hp.ign, hp.sub⟩
    · cases h
      exact ⟨hi', hp.here, fun c cd hf _ => absurd hf (hp.inv.dead (by rw [hc]; rfl) c cd), hp.sub⟩

theorem hist_pinv {s : St} (h : Hist Polite s) : PInv s := by
  induction h with
  | start => exact ⟨inv_start, fun c h => (by cases h), fun c cd h => (by cases h), fun c h => (by cases h)⟩
  | step e _ hg h ih => exact pinv_step e ih hg h

/-- Places in the order of the loop, as the number of steps to the place where the server accepts. -/
def toGo : Pc → Nat
  | .accept => 0 | .dfl => 1 | .close => 2 | .fclose => 3 | .clear => 4 | .test => 5 | .reading => 6 | .ignore => 7 | .announce => 8

theorem serve_toGo {s s' : St} {fd : Nat} (hg : ∀ c cd, s.file = .conn c cd → c ∈ s.gone) (ha : s.pc ≠ .accept) (h : serve s fd = .ok s') :
    toGo s'.pc + 1 = toGo s.pc ∧ ∀ c cd, s'.file = .conn c cd → c ∈ s'.gone := by
  unfold serve at h
  cases hc : s.pc <;> rw [hc] at h <;> dsimp only at h
  · exact absurd hc ha
  · obtain ⟨s1, h1, h⟩ := bind_ok' h
    obtain ⟨g, rfl⟩ := tracef_same h1
    cases h; exact ⟨rfl, hg⟩
  · cases h; exact ⟨rfl, hg⟩
  · split at h
    · rename_i c cd hf
      rw [if_pos (hg c cd hf)] at h
      cases h; exact ⟨rfl, hg⟩
    · cases h
  · obtain ⟨s1, h1, h⟩ := bind_ok' h
    obtain ⟨g, rfl⟩ := tracef_same h1
    cases h; exact ⟨rfl, hg⟩
  · cases h; exact ⟨rfl, hg⟩
  · split at h
    · cases h; exact ⟨rfl, fun c cd h => (by cases h)⟩
    · cases h
  · cases h; exact ⟨rfl, hg⟩
  · cases h; exact ⟨rfl, hg⟩

theorem back_run : ∀ (n : Nat) {s : St}, PInv s → (∀ c cd, s.file = .conn c cd → c ∈ s.gone) → toGo s.pc = n → ∃ s', run s (List.replicate n (.serve 0)) = .ok s' ∧ s'.pc = .accept
  | 0, s, _, _, h => ⟨s, rfl, by cases hc : s.pc <;> rw [hc] at h <;> first | rfl | cases h⟩
  | n + 1, s, hp, hg, h => by
    obtain ⟨s1, h1⟩ := serve_total hp 0
    have ha : s.pc ≠ .accept := by intro h2; rw [h2] at h; cases h
    obtain ⟨h2, h3⟩ := serve_toGo hg ha h1
    obtain ⟨s', h4, h5⟩ := back_run n (pinv_step (.serve 0) hp True.intro h1) h3 (by omega)
    refine ⟨s', ?_, h5⟩
    show (step s (.serve 0) >>= fun s => run s (List.replicate n (.serve 0))) = _
    rw [show step s (.serve 0) = .ok s1 from h1]
    exact h4

theorem comes_back {s : St} (hp : PInv s) (hg : ∀ c cd, s.file = .conn c cd → c ∈ s.gone) : ∃ n s', n ≤ 8 ∧ run s (List.replicate n (.serve 0)) = .ok s' ∧ s'.pc = .accept := by
  obtain ⟨s', h1, h2⟩ := back_run _ hp hg rfl
  exact ⟨toGo s.pc, s', by cases s.pc <;> simp [toGo], h1, h2⟩

/-! ### C72 -/

/-- After the connection was closed nobody else has its descriptor. -/
def QInv (s : St) : Prop := s.pc = .close → s.fds s.cd = none

theorem qinv_step {s s' : St} (e : Ev) (hi : Inv s) (hq : QInv s) (hg : Quiet s e) (h : step s e = .ok s') : QInv s' := by
  cases e with
  | setMask m => cases h; exact hq
  | connect c =>
    simp only [step] at h
    split at h <;> cases h <;> exact hq
  | leave c =>
    simp only [step] at h
    split at h <;> cases h <;> exact hq
  | write b t =>
    simp only [step] at h
    split at h
    · obtain ⟨g, rfl⟩ := tracef_same h; exact hq
    · cases h; exact hq
  | late t => obtain ⟨g, rfl⟩ := tracef_same h; exact hq
  | openFd fd id =>
    simp only [step] at h
    split at h <;> cases h
    · exact fun h => absurd h hg
    · exact hq
  | closeFd fd id =>
    simp only [step] at h
    split at h <;> cases h
    · intro h1
      show (if s.cd = fd then none else s.fds s.cd) = none
      split
      · rfl
      · exact hq h1
    · exact hq
  | serve fd =>
    simp only [step, serve] at h
    cases hc : s.pc <;> rw [hc] at h <;> dsimp only at h
    · split at h
      · cases h; exact fun h => (by cases h)
      · cases h; exact hq
    · obtain ⟨s1, h1, h⟩ := bind_ok' h
      cases h; exact fun h => (by cases h)
    · cases h; exact fun h => (by cases h)
    · split at h
      · split at h
        · cases h; exact fun h => (by cases h)
        · cases h; exact hq
      · cases h
    · obtain ⟨s1, h1, h⟩ := bind_ok' h
      cases h; exact fun h => (by cases h)
    · cases h; exact fun h => (by cases h)
    · obtain ⟨c, h1, _⟩ := hi.file (by rw [hc]; rfl)
      rw [h1] at h
      cases h
      intro _
      show (if s.cd = s.cd then none else s.fds s.cd) = none
      rw [if_pos rfl]
    · cases h; exact fun h => (by cases h)
    · cases h; exact fun h => (by cases h)

theorem hist_qinv {s : St} (h : Hist Quiet s) : QInv s := by
  induction h with
  | start => exact fun h => by cases h
  | step e h0 hg h ih => exact qinv_step e (hist_inv h0) ih hg h

/-- The server closes nothing that belongs to others. -/
theorem serve_fds {s s' : St} {fd : Nat} (hi : Inv s) (hq : QInv s) (h : serve s fd = .ok s') (f id : Nat) (ho : s.fds f = some (.other id)) : s'.fds f = some (.other id) := by
  unfold serve at h
  cases hc : s.pc <;> rw [hc] at h <;> dsimp only at h
  · split at h
    · rename_i hf
      cases h
      show (if f = fd then _ else s.fds f) = _
      rw [if_neg, ho]
      intro h2
      subst h2
      rw [hf] at ho
      cases ho
    · cases h; exact ho
  · obtain ⟨s1, h1, h⟩ := bind_ok' h
    obtain ⟨g, rfl⟩ := tracef_same h1
    cases h; exact ho
  · cases h; exact ho
  · split at h
    · split at h <;> cases h <;> exact ho
    · cases h
  · obtain ⟨s1, h1, h⟩ := bind_ok' h
    obtain ⟨g, rfl⟩ := tracef_same h1
    cases h; exact ho
  · cases h; exact ho
  · obtain ⟨c, h1, _⟩ := hi.file (by rw [hc]; rfl)
    rw [h1] at h
    cases h
    show (if f = s.cd then none else s.fds f) = _
    rw [if_neg, ho]
    intro h2
    have := hi.fd (by rw [hc]; rfl)
    rw [← h2, ho] at this
    cases this
  · cases h
    show (if f = s.cd then none else s.fds f) = _
    rw [if_neg, ho]
    intro h2
    have := hq hc
    rw [← h2, ho] at this
    cases this
  · cases h; exact ho

/-! ### C70 -/

theorem served_step {s s' : St} {c : Nat} (e : Ev) (hs : Served s c) (hm : keepsMask e) (hl : stays c e) (h : step s e = .ok s') :
    Served s' c ∧ s'.mask = s.mask ∧ s'.got = s.got ++ (lines s.mask [e]).map (fun t => (c, t)) := by
  obtain ⟨⟨cd, hf⟩, hg, hpc⟩ := hs
  have tr : ∀ t s', tracef s t = .ok s' → s' = { s with got := s.got ++ [(c, t)] } := by
    intro t s' h
    unfold tracef at h
    rw [hf] at h
    dsimp only at h
    rw [if_neg hg] at h
    cases h; rw [hf]
  cases e with
  | setMask m => exact hm.elim
  | connect d =>
    simp only [step] at h
    split at h <;> cases h <;> exact ⟨⟨⟨cd, hf⟩, hg, hpc⟩, rfl, by simp [lines]⟩
  | leave d =>
    simp only [step] at h
    split at h <;> cases h
    · refine ⟨⟨⟨cd, hf⟩, fun h1 => ?_, hpc⟩, rfl, by simp [lines]⟩
      rcases List.mem_cons.1 h1 with h2 | h2
      · exact hl h2.symm
      · exact hg h2
    · exact ⟨⟨⟨cd, hf⟩, hg, hpc⟩, rfl, by simp [lines]⟩
  | write b t =>
    simp only [step] at h
    split at h
    · rename_i hb
      rw [tr t s' h]
      exact ⟨⟨⟨cd, hf⟩, hg, hpc⟩, rfl, by simp [lines, hb]⟩
    · rename_i hb
      cases h
      exact ⟨⟨⟨cd, hf⟩, hg, hpc⟩, rfl, by simp [lines, hb]⟩
  | late t =>
    rw [tr t s' h]
    exact ⟨⟨⟨cd, hf⟩, hg, hpc⟩, rfl, by simp [lines]⟩
  | openFd fd id =>
    simp only [step] at h
    split at h <;> cases h <;> exact ⟨⟨⟨cd, hf⟩, hg, hpc⟩, rfl, by simp [lines, setFd]⟩
  | closeFd fd id =>
    simp only [step] at h
    split at h <;> cases h <;> exact ⟨⟨⟨cd, hf⟩, hg, hpc⟩, rfl, by simp [lines, setFd]⟩
  | serve fd =>
    simp only [step, serve] at h
    rcases hpc with hpc | hpc
    · rw [hpc] at h
      cases h
      exact ⟨⟨⟨cd, hf⟩, hg, .inr rfl⟩, rfl, by simp [lines]⟩
    · rw [hpc] at h
      dsimp only at h
      rw [hf] at h
      dsimp only at h
      rw [if_neg hg] at h
      cases h
      exact ⟨⟨⟨cd, hf⟩, hg, .inr hpc⟩, rfl, by simp [lines]⟩

/-- The same between `accept` and the announcement, as long as the server does nothing. -/
theorem accepted_step {s s' : St} {c : Nat} (e : Ev) (hs : (∃ cd, s.file = .conn c cd) ∧ c ∉ s.gone ∧ s.pc = .announce) (hm : keepsMask e) (hl : stays c e) (hn : ∀ f, e ≠ .serve f) (h : step s e = .ok s') :
    ((∃ cd, s'.file = .conn c cd) ∧ c ∉ s'.gone ∧ s'.pc = .announce) ∧ s'.mask = s.mask ∧ s'.got = s.got ++ (lines s.mask [e]).map (fun t => (c, t)) := by
  obtain ⟨⟨cd, hf⟩, hg, hpc⟩ := hs
  have tr : ∀ t s', tracef s t = .ok s' → s' = { s with got := s.got ++ [(c, t)] } := by
    intro t s' h
    unfold tracef at h
    rw [hf] at h
    dsimp only at h
    rw [if_neg hg] at h
    cases h; rw [hf]
  cases e with
  | setMask m => exact hm.elim
  | connect d =>
    simp only [step] at h
    split at h <;> cases h <;> exact ⟨⟨⟨cd, hf⟩, hg, hpc⟩, rfl, by simp [lines]⟩
  | leave d =>
    simp only [step] at h
    split at h <;> cases h
    · refine ⟨⟨⟨cd, hf⟩, fun h1 => ?_, hpc⟩, rfl, by simp [lines]⟩
      rcases List.mem_cons.1 h1 with h2 | h2
      · exact hl h2.symm
      · exact hg h2
    · exact ⟨⟨⟨cd, hf⟩, hg, hpc⟩, rfl, by simp [lines]⟩
  | write b t =>
    simp only [step] at h
    split at h
    · rename_i hb
      rw [tr t s' h]
      exact ⟨⟨⟨cd, hf⟩, hg, hpc⟩, rfl, by simp [lines, hb]⟩
    · rename_i hb
      cases h
      exact ⟨⟨⟨cd, hf⟩, hg, hpc⟩, rfl, by simp [lines, hb]⟩
  | late t =>
    rw [tr t s' h]
    exact ⟨⟨⟨cd, hf⟩, hg, hpc⟩, rfl, by simp [lines]⟩
  | openFd fd id =>
    simp only [step] at h
    split at h <;> cases h <;> exact ⟨⟨⟨cd, hf⟩, hg, hpc⟩, rfl, by simp [lines, setFd]⟩
  | closeFd fd id =>
    simp only [step] at h
    split at h <;> cases h <;> exact ⟨⟨⟨cd, hf⟩, hg, hpc⟩, rfl, by simp [lines, setFd]⟩
  | serve fd => exact absurd rfl (hn fd)

theorem lines_cons (m : Nat) (e : Ev) (es : List Ev) : lines m (e :: es) = lines m [e] ++ lines m es := by
  cases e <;> simp only [lines, List.nil_append, List.cons_append]
  split <;> rfl

theorem served_run {c : Nat} : ∀ (es : List Ev) {s s' : St}, Served s c → (∀ e ∈ es, keepsMask e ∧ stays c e) → run s es = .ok s' →
    Served s' c ∧ s'.mask = s.mask ∧ s'.got = s.got ++ (lines s.mask es).map (fun t => (c, t))
  | [], s, s', hs, _, h => by cases h; exact ⟨hs, rfl, by simp [lines]⟩
  | e :: es, s, s', hs, he, h => by
    obtain ⟨s1, h1, h2⟩ := bind_ok' (show (step s e >>= fun s => run s es) = .ok s' from h)
    obtain ⟨a1, a2, a3⟩ := served_step e hs (he e (by simp)).1 (he e (by simp)).2 h1
    obtain ⟨b1, b2, b3⟩ := served_run es a1 (fun x hx => he x (by simp [hx])) h2
    refine ⟨b1, by rw [b2, a2], ?_⟩
    rw [b3, a3, a2, lines_cons s.mask e es, List.map_append, List.append_assoc]

/-- Until the server clears the mask it is at work for the client; afterwards the mask is 0. -/
def Ending (s : St) : Prop := (s.pc = .ignore ∨ s.pc = .reading ∨ s.pc = .test ∨ s.pc = .clear) ∨ s.mask = 0

theorem ending_step {s s' : St} (e : Ev) (hs : Ending s) (hm : keepsMask e) (h : step s e = .ok s') : Ending s' := by
  cases e with
  | setMask m => exact hm.elim
  | connect d =>
    simp only [step] at h
    split at h <;> cases h <;> exact hs
  | leave d =>
    simp only [step] at h
    split at h <;> cases h <;> exact hs
  | write b t =>
    simp only [step] at h
    split at h
    · obtain ⟨g, rfl⟩ := tracef_same h; exact hs
    · cases h; exact hs
  | late t => obtain ⟨g, rfl⟩ := tracef_same h; exact hs
  | openFd fd id =>
    simp only [step] at h
    split at h <;> cases h <;> exact hs
  | closeFd fd id =>
    simp only [step] at h
    split at h <;> cases h <;> exact hs
  | serve fd =>
    simp only [step, serve] at h
    rcases hs with (hc | hc | hc | hc) | h0
    · rw [hc] at h; cases h; exact .inl (.inr (.inl rfl))
    · rw [hc] at h
      dsimp only at h
      split at h
      · split at h <;> cases h
        · exact .inl (.inr (.inr (.inl rfl)))
        · exact .inl (.inr (.inl hc))
      · cases h
    · rw [hc] at h
      obtain ⟨s1, h1, h⟩ := bind_ok' h
      cases h
      exact .inl (.inr (.inr (.inr rfl)))
    · rw [hc] at h; cases h; exact .inr rfl
    · right
      cases hc : s.pc <;> rw [hc] at h <;> dsimp only at h
      · split at h <;> cases h <;> exact h0
      · obtain ⟨s1, h1, h⟩ := bind_ok' h
        obtain ⟨g, rfl⟩ := tracef_same h1
        cases h; exact h0
      · cases h; exact h0
      · split at h
        · split at h <;> cases h <;> exact h0
        · cases h
      · obtain ⟨s1, h1, h⟩ := bind_ok' h
        obtain ⟨g, rfl⟩ := tracef_same h1
        cases h; exact h0
      · cases h; rfl
      · split at h <;> cases h <;> exact h0
      · cases h; exact h0
      · cases h; exact h0

theorem ending_run : ∀ (es : List Ev) {s s' : St}, Ending s → (∀ e ∈ es, keepsMask e) → run s es = .ok s' → Ending s'
  | [], s, s', hs, _, h => by cases h; exact hs
  | e :: es, s, s', hs, he, h => by
    obtain ⟨s1, h1, h2⟩ := bind_ok' (show (step s e >>= fun s => run s es) = .ok s' from h)
    exact ending_run es (ending_step e hs (he e (by simp)) h1) (fun x hx => he x (by simp [hx])) h2

/-- Steps that meet the guard in every state. -/
theorem hist_run {G : St → Ev → Prop} : ∀ (es : List Ev) {s s' : St}, Hist G s → (∀ e ∈ es, ∀ s, G s e) → run s es = .ok s' → Hist G s'
  | [], s, s', hs, _, h => by cases h; exact hs
  | e :: es, s, s', hs, he, h => by
    obtain ⟨s1, h1, h2⟩ := bind_ok' (show (step s e >>= fun s => run s es) = .ok s' from h)
    exact hist_run es (.step e hs (he e (by simp) s) h1) (fun x hx => he x (by simp [hx])) h2

end Nfqlb.TraceSrv
