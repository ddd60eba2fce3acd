import Verif.Proof.Log
import Verif.Props.TraceSrv
import Mathlib.Data.List.Perm.Basic

/-! C98: what is logged, and where it goes. -/

set_option autoImplicit false

namespace Nfqlb.Props

open Nfqlb Nfqlb.TraceSrv Nfqlb.Log Nfqlb.Spec.TSrv Nfqlb.Spec.Log

/-- C98: whatever threads, clients and the trace server do, `stderr` gets the messages with a severity up to the level of the moment, each once and in order. -/
theorem C98_log (s s' : LogSt) (es : List Log.Ev) (h : Log.run s es = .ok s') : onErr s' .msg = onErr s .msg ++ logged s.level es := by
  induction es generalizing s with
  | nil => cases h; simp [logged]
  | cons e es ih =>
    obtain ⟨s1, h1, h2⟩ := bind_ok' (show (Log.step s e >>= fun s => Log.run s es) = .ok s' from h)
    rw [ih s1 h2]
    rcases step_err h1 with ⟨new, e1, e2, e3⟩ | ⟨sev, t, rfl, hl, e1⟩
    · have hn : new.filter (fun x => decide (x.1 = Tag.msg)) = [] := by
        rw [List.filter_eq_nil_iff]
        intro x hx
        rcases e2 x hx with h | h
        · simp [h]
        · simp [h.1]
      have ho : onErr s1 .msg = onErr s .msg := by unfold onErr; rw [e1, List.filter_append, hn, List.append_nil]
      rw [ho]
      congr 1
      cases e with
      | base b => rw [step_level h1 (by simp)]; rfl
      | setLevel n => cases h1; rfl
      | say sev t => rw [step_level h1 (by simp)]; simp only [logged]; rw [if_neg (e3 sev t rfl)]
      | copy k => rw [step_level h1 (by simp)]; rfl
    · have ho : onErr s1 .msg = onErr s .msg ++ [t] := by unfold onErr; rw [e1]; simp
      rw [ho, step_level h1 (by simp)]
      simp only [logged]
      rw [if_pos hl]
      simp

theorem notStderr_serve {s s' : St} {fd : Nat} (hn : s.file ≠ .stderr) (h : TraceSrv.serve s fd = .ok s') : s'.file ≠ .stderr := by
  unfold TraceSrv.serve at h
  cases hc : s.pc <;> rw [hc] at h <;> dsimp only at h
  · split at h <;> cases h
    · simp
    · exact hn
  · obtain ⟨s1, h1, h⟩ := bind_ok' h
    cases h
    rcases tracef_ok h1 with rfl | ⟨c, cd, _, _, rfl⟩ <;> exact hn
  · cases h; exact hn
  · split at h
    · split at h <;> cases h <;> exact hn
    · cases h
  · obtain ⟨s1, h1, h⟩ := bind_ok' h
    cases h
    rcases tracef_ok h1 with rfl | ⟨c, cd, _, _, rfl⟩ <;> exact hn
  · cases h; exact hn
  · split at h <;> cases h
    simp
  · cases h; exact hn
  · cases h; exact hn

theorem notStderr_step {s s' : St} (e : TraceSrv.Ev) (hn : s.file ≠ .stderr) (h : TraceSrv.step s e = .ok s') : s'.file ≠ .stderr := by
  cases e with
  | setMask m => cases h; exact hn
  | connect c => simp only [TraceSrv.step] at h; split at h <;> cases h <;> exact hn
  | leave c => simp only [TraceSrv.step] at h; split at h <;> cases h <;> exact hn
  | write b t =>
    simp only [TraceSrv.step] at h
    split at h
    · rcases tracef_ok h with rfl | ⟨c, cd, _, _, rfl⟩ <;> exact hn
    · cases h; exact hn
  | late t => rcases tracef_ok h with rfl | ⟨c, cd, _, _, rfl⟩ <;> exact hn
  | openFd fd i => simp only [TraceSrv.step] at h; split at h <;> cases h <;> exact hn
  | closeFd fd i => simp only [TraceSrv.step] at h; split at h <;> cases h <;> exact hn
  | serve fd => exact notStderr_serve hn h

theorem notStderr_sim {s s' : St} {es : List TraceSrv.Ev} (hs : Sim s es s') (hn : s.file ≠ .stderr) : s'.file ≠ .stderr := by
  induction hs with
  | nil => exact hn
  | cons h _ ih => exact ih (notStderr_step _ hn h)

/-- C98 (partial): once a trace client was accepted, nothing is written to `stderr` but the messages and those of the trace server. Missing: before that everything that is selected is written to `stderr`, also the messages, a second
time, see `C98_violated`. -/
theorem C98_once_partial (s s' : LogSt) (es : List Log.Ev) (hn : s.srv.file ≠ .stderr) (h : Log.run s es = .ok s') : onErr s' .traced = onErr s .traced := by
  induction es generalizing s with
  | nil => cases h; rfl
  | cons e es ih =>
    obtain ⟨s1, h1, h2⟩ := bind_ok' (show (Log.step s e >>= fun s => Log.run s es) = .ok s' from h)
    obtain ⟨bs, hb, -⟩ := step_sim h1
    rw [ih s1 (notStderr_sim hb hn) h2]
    unfold onErr
    rcases step_err h1 with ⟨new, e1, e2, e3⟩ | ⟨sev, t, rfl, hl, e1⟩
    · rw [e1, List.filter_append]
      have : new.filter (fun x => decide (x.1 = Tag.traced)) = [] := by
        rw [List.filter_eq_nil_iff]
        intro x hx
        rcases e2 x hx with h | h
        · simp [h]
        · exact absurd h.2 hn
      rw [this, List.append_nil]
    · rw [e1]; simp

/-- C98: logging adds nothing to the behaviour of the trace server: what it does is what it does, without the log, if some threads write the messages. Hence C71 and C72 hold with the log. -/
theorem C98_refines (s s' : LogSt) (es : List Log.Ev) (h : Log.run s es = .ok s') :
    ∃ bs, TraceSrv.run s.srv bs = .ok s'.srv ∧ ∀ b ∈ bs, .base b ∈ es ∨ ∃ t, b = .late t := by
  suffices ∃ bs, Sim s.srv bs s'.srv ∧ ∀ b ∈ bs, .base b ∈ es ∨ ∃ t, b = .late t from by
    obtain ⟨bs, h1, h2⟩ := this
    exact ⟨bs, h1.run, h2⟩
  induction es generalizing s with
  | nil => cases h; exact ⟨[], .nil _, by simp⟩
  | cons e es ih =>
    obtain ⟨s1, h1, h2⟩ := bind_ok' (show (Log.step s e >>= fun s => Log.run s es) = .ok s' from h)
    obtain ⟨bs, hb, hc⟩ := step_sim h1
    obtain ⟨cs, hd, he⟩ := ih s1 h2
    refine ⟨bs ++ cs, hb.append hd, fun b hm => ?_⟩
    rcases List.mem_append.1 hm with hm | hm
    · exact (hc b hm).imp (fun h => by rw [h]; exact List.mem_cons_self) id
    · exact (he b hm).imp (fun h => List.mem_cons_of_mem _ h) id

theorem late_served {s s' : LogSt} {c : Nat} {t : List Char} (hs : Served s.srv c) (h : toTrace s t = .ok s') :
    Served s'.srv c ∧ s'.srv.mask = s.srv.mask ∧ s'.srv.got = s.srv.got ++ [(c, t)] ∧ s'.pend = s.pend := by
  obtain ⟨h1, -, h3, -⟩ := toTrace_ok h
  obtain ⟨k1, k2, k3⟩ := served_step (.late t) hs True.intro True.intro h1
  exact ⟨k1, k2, k3, h3⟩

theorem served_log {s s' : LogSt} {c : Nat} (e : Log.Ev) (hs : Served s.srv c) (hm : ∀ b, e = .base b → keepsMask b ∧ stays c b) (h : Log.step s e = .ok s') :
    Served s'.srv c ∧ s'.srv.mask = s.srv.mask ∧ ∃ new : List (List Char), s'.srv.got = s.srv.got ++ new.map (fun t => (c, t)) ∧
      (new ++ s'.pend).Perm (s.pend ++ lines s.srv.mask (bases [e]) ++ if s.srv.mask.testBit 0 then logged s.level [e] else []) := by
  have other : ∀ (b : TraceSrv.Ev) (t : St), TraceSrv.step s.srv b = .ok t → s' = { s with srv := t } → keepsMask b → stays c b →
      Served s'.srv c ∧ s'.srv.mask = s.srv.mask ∧ s'.srv.got = s.srv.got ++ (lines s.srv.mask [b]).map (fun t => (c, t)) ∧ s'.pend = s.pend := by
    intro b t h1 h2 k1 k2
    obtain ⟨a1, a2, a3⟩ := served_step b hs k1 k2 h1
    subst h2
    exact ⟨a1, a2, a3, rfl⟩
  cases e with
  | base b =>
    obtain ⟨hm1, hm2⟩ := hm b rfl
    suffices Served s'.srv c ∧ s'.srv.mask = s.srv.mask ∧ s'.srv.got = s.srv.got ++ (lines s.srv.mask [b]).map (fun t => (c, t)) ∧ s'.pend = s.pend from by
      obtain ⟨a1, a2, a3, a4⟩ := this
      refine ⟨a1, a2, lines s.srv.mask [b], a3, ?_⟩
      rw [a4]
      simp only [bases, logged, ite_self, List.append_nil]
      exact List.perm_append_comm
    cases b with
    | write bit t =>
      simp only [Log.step] at h
      by_cases hb : s.srv.mask.testBit bit = true
      · rw [if_pos hb] at h
        obtain ⟨a1, a2, a3, a4⟩ := late_served hs h
        exact ⟨a1, a2, by simp only [lines]; rw [if_pos hb]; exact a3, a4⟩
      · rw [if_neg hb] at h
        cases h
        exact ⟨hs, rfl, by simp only [lines]; rw [if_neg hb]; simp, rfl⟩
    | late t =>
      obtain ⟨a1, a2, a3, a4⟩ := late_served hs h
      exact ⟨a1, a2, a3, a4⟩
    | serve fd =>
      have hb : bare s fd = .ok s' := by
        rcases hs.2.2 with hp | hp
        · simp only [Log.step, Log.serve, hp] at h; exact h
        · simp only [Log.step, Log.serve, hp] at h; exact h
      unfold bare at hb
      obtain ⟨t, h1, h2⟩ := bind_ok' hb
      obtain ⟨a1, a2, a3⟩ := served_step (.serve fd) hs True.intro True.intro h1
      cases h2
      exact ⟨a1, a2, a3, rfl⟩
    | setMask m => exact hm1.elim
    | connect d => obtain ⟨a, h1, h2⟩ := bind_ok' h; exact other _ a h1 (Res.ok.inj h2).symm hm1 hm2
    | leave d => obtain ⟨a, h1, h2⟩ := bind_ok' h; exact other _ a h1 (Res.ok.inj h2).symm hm1 hm2
    | openFd fd i => obtain ⟨a, h1, h2⟩ := bind_ok' h; exact other _ a h1 (Res.ok.inj h2).symm hm1 hm2
    | closeFd fd i => obtain ⟨a, h1, h2⟩ := bind_ok' h; exact other _ a h1 (Res.ok.inj h2).symm hm1 hm2
  | setLevel n => cases h; exact ⟨hs, rfl, [], by simp, by simp [bases, logged, lines]⟩
  | say sev t =>
    cases h
    obtain ⟨cd, hf⟩ := hs.1
    by_cases hl : s.level ≥ sev
    · by_cases hb : s.srv.mask.testBit 0 = true
      · have : Log.say s sev t = { s with err := s.err ++ [(.msg, t)], pend := s.pend ++ [t] } := by
          unfold Log.say active0
          rw [if_pos hl]
          dsimp only
          rw [if_pos (by simp [hf, hb])]
        rw [this]
        refine ⟨hs, rfl, [], by simp, ?_⟩
        simp only [bases, logged, lines]
        rw [if_pos hb, if_pos hl]
        simp
      · have : Log.say s sev t = { s with err := s.err ++ [(.msg, t)] } := by
          unfold Log.say active0
          rw [if_pos hl]
          dsimp only
          rw [if_neg (by simp [hb])]
        rw [this]
        refine ⟨hs, rfl, [], by simp, ?_⟩
        rw [if_neg hb]
        simp [bases, lines]
    · have : Log.say s sev t = s := by unfold Log.say; rw [if_neg hl]
      rw [this]
      refine ⟨hs, rfl, [], by simp, ?_⟩
      simp only [bases, logged, lines]
      rw [if_neg (show ¬ sev ≤ s.level from hl)]
      simp
  | copy k =>
    simp only [Log.step] at h
    cases hk : s.pend[k]? with
    | none => rw [hk] at h; cases h; exact ⟨hs, rfl, [], by simp, by simp [bases, logged, lines]⟩
    | some t =>
      rw [hk] at h
      obtain ⟨a1, a2, a3, a4⟩ := late_served (s := { s with pend := s.pend.eraseIdx k }) hs h
      refine ⟨a1, a2, [t], a3, ?_⟩
      rw [a4]
      obtain ⟨hlt, he⟩ := List.getElem?_eq_some_iff.1 hk
      simp only [bases, logged, lines, ite_self, List.append_nil]
      rw [← he]
      exact List.getElem_cons_eraseIdx_perm hlt

theorem logged_cons {s s' : LogSt} {e : Log.Ev} (h : Log.step s e = .ok s') (es : List Log.Ev) : logged s.level (e :: es) = logged s.level [e] ++ logged s'.level es := by
  cases e with
  | base b => rw [step_level h (by simp)]; rfl
  | setLevel n => cases h; rfl
  | say sev t =>
    rw [step_level h (by simp)]
    simp only [logged]
    split <;> rfl
  | copy k => rw [step_level h (by simp)]; rfl

theorem bases_cons (e : Log.Ev) (es : List Log.Ev) : bases (e :: es) = bases [e] ++ bases es := by cases e <;> rfl

theorem lines_append (m : Nat) : ∀ (a b : List TraceSrv.Ev), lines m (a ++ b) = lines m a ++ lines m b
  | [], b => rfl
  | e :: a, b => by
    cases e <;> simp only [List.cons_append, lines, lines_append m a b]
    split <;> rfl

/-- C98: while client `c` is served and stays, and no one changes the mask, it gets, if it has selected `log`, each message that is logged exactly once (those of the log, `logged`, beside what it has selected of the trace, `lines`), up to
those that threads are about to write (`pend`); and if it has not selected `log`, none of them. -/
theorem C98_client (s s' : LogSt) (c : Nat) (es : List Log.Ev) (hs : Served s.srv c) (hm : ∀ b, .base b ∈ es → keepsMask b ∧ stays c b) (h : Log.run s es = .ok s') :
    ∃ new : List (List Char), s'.srv.got = s.srv.got ++ new.map (fun t => (c, t)) ∧
      (new ++ s'.pend).Perm (s.pend ++ lines s.srv.mask (bases es) ++ if s.srv.mask.testBit 0 then logged s.level es else []) := by
  induction es generalizing s with
  | nil => cases h; exact ⟨[], by simp, by simp [bases, lines, logged]⟩
  | cons e es ih =>
    obtain ⟨s1, h1, h2⟩ := bind_ok' (show (Log.step s e >>= fun s => Log.run s es) = .ok s' from h)
    obtain ⟨a1, a2, n1, a3, p1⟩ := served_log e hs (fun b hb => hm b (by rw [hb]; exact List.mem_cons_self)) h1
    obtain ⟨n2, b3, p2⟩ := ih s1 a1 (fun b hb => hm b (List.mem_cons_of_mem _ hb)) h2
    refine ⟨n1 ++ n2, by rw [b3, a3]; simp, ?_⟩
    rw [a2] at p2
    rw [logged_cons h1, bases_cons, lines_append]
    rw [List.perm_iff_count] at p1 p2 ⊢
    intro x
    have q1 := p1 x
    have q2 := p2 x
    by_cases hb : s.srv.mask.testBit 0 = true
    · simp only [if_pos hb, List.count_append] at q1 q2 ⊢
      omega
    · simp only [if_neg hb, List.count_append, List.count_nil] at q1 q2 ⊢
      omega

/-- Messages are logged, a client that selected `log` and `packet` gets them: a message, what is traced, and once more a message; and one is about to be written. -/
example : (do
    let s ← Log.run (Log.start 5) ([.base (.serve 0), .base (.setMask 3), .base (.connect 7), .base (.serve 3), .base (.serve 0), .base (.serve 0), .base (.serve 0)])
    let t ← Log.run s [.say 4 "w".toList, .base (.write 1 "p".toList), .say 6 "i".toList, .copy 0, .setLevel 7, .say 6 "j".toList, .say 7 "d".toList, .copy 0]
    return (decide (s.srv.file = .conn 7 3 ∧ s.srv.pc = .reading), (t.srv.got.drop s.srv.got.length).map (fun x => String.ofList x.2), t.pend.map String.ofList, (onErr t .msg).map String.ofList)) =
    Res.ok (true, ["p", "w", "j"], ["d"], ["w", "j", "d"]) := by decide +kernel

/-- What holds with the log if clients are polite. -/
theorem lhist_pinv {level : Int} {s : LogSt} (h : LHist Polite level s) : PInv s.srv := by
  induction h with
  | start => exact hist_pinv .start
  | step e _ hg h ih =>
    rename_i s s'
    have aux : ∀ {a b : St} {es : List TraceSrv.Ev}, Sim a es b → (∀ x ∈ es, ∀ st, Polite st x) → PInv a → PInv b := by
      intro a b es hs
      induction hs with
      | nil => intro _ h; exact h
      | cons h1 _ ih2 => intro hx hp; exact ih2 (fun x hm => hx x (List.mem_cons_of_mem _ hm)) (pinv_step _ hp (hx _ List.mem_cons_self _) h1)
    by_cases hl : ∃ c, e = .base (.leave c)
    · obtain ⟨c, rfl⟩ := hl
      obtain ⟨a, h1, h2⟩ := bind_ok' h
      have := pinv_step (.leave c) ih (hg _ rfl) h1
      cases h2
      exact this
    · obtain ⟨es, hs, he⟩ := step_sim h
      refine aux hs (fun x hx st => ?_) ih
      rcases he x hx with h | ⟨t, rfl⟩
      · cases x with
        | leave c => exact absurd ⟨c, h⟩ hl
        | _ => exact True.intro
      · exact True.intro

theorem own_total {s : LogSt} (hp : PInv s.srv) (sev : Int) (t : List Char) : ∃ s', own s sev t = .ok s' := by
  unfold own
  split
  · dsimp only
    split
    · obtain ⟨r, hr⟩ := tracef_total hp t
      exact toTrace_total (s := { s with err := s.err ++ [(Tag.own, t)] }) (r := r) hr
    · exact ⟨_, rfl⟩
  · exact ⟨_, rfl⟩

theorem bare_total {s : LogSt} (hp : PInv s.srv) (fd : Nat) : ∃ s', bare s fd = .ok s' := by
  obtain ⟨r, hr⟩ := serve_total hp fd
  unfold bare
  rw [hr]
  exact ⟨_, rfl⟩

theorem pinv_sim {a b : St} {es : List TraceSrv.Ev} (hs : Sim a es b) (hx : ∀ x ∈ es, ∀ st, Polite st x) (hp : PInv a) : PInv b := by
  induction hs with
  | nil => exact hp
  | cons h1 _ ih2 => exact ih2 (fun x hm => hx x (List.mem_cons_of_mem _ hm)) (pinv_step _ hp (hx _ List.mem_cons_self _) h1)

/-- C98 (partial): if clients end only while the server waits for that, no message stops the process, as in C71. Missing: other clients; a message that is copied to a client that has gone ends the process just as what is traced
(`C98_violated`). -/
theorem C98_alive_partial (level : Int) (s : LogSt) (hh : LHist Polite level s) (e : Log.Ev) : ∃ s', Log.step s e = .ok s' := by
  have hp := lhist_pinv hh
  cases e with
  | base b =>
    cases b with
    | write bit t =>
      simp only [Log.step]
      split
      · obtain ⟨r, hr⟩ := tracef_total hp t; exact toTrace_total hr
      · exact ⟨_, rfl⟩
    | late t => obtain ⟨r, hr⟩ := tracef_total hp t; exact toTrace_total hr
    | serve fd =>
      simp only [Log.step, Log.serve]
      split
      · obtain ⟨r, hr⟩ := own_total hp 7 "Trace: accept\n".toList
        rw [hr]; exact ⟨_, rfl⟩
      · split
        · obtain ⟨r, hr⟩ := own_total hp 6 (accepted fd)
          rw [hr]
          obtain ⟨⟨es, e1, e2⟩, -⟩ := own_ok hr
          exact bare_total (pinv_sim e2 (fun x hx st => by rw [e1 x hx]; exact True.intro) hp) fd
        · exact ⟨_, rfl⟩
      · obtain ⟨r, hr⟩ := own_total hp 4 (activeMask s.srv.mask)
        rw [hr]; exact ⟨_, rfl⟩
      · obtain ⟨r, hr⟩ := bare_total hp fd
        rw [hr]
        exact own_total (pinv_sim (bare_ok hr).1 (by simp [Polite]) hp) 4 _
      · exact bare_total hp fd
    | setMask m => exact ⟨_, rfl⟩
    | connect c => exact ⟨_, rfl⟩
    | leave c => exact ⟨_, rfl⟩
    | openFd fd i => exact ⟨_, rfl⟩
    | closeFd fd i => exact ⟨_, rfl⟩
  | setLevel n => exact ⟨_, rfl⟩
  | say sev t => exact ⟨_, rfl⟩
  | copy k =>
    simp only [Log.step]
    split
    · exact ⟨_, rfl⟩
    · rename_i t _
      obtain ⟨r, hr⟩ := tracef_total hp t
      exact toTrace_total (s := { s with pend := s.pend.eraseIdx k }) (r := r) hr

theorem own_idle {s : LogSt} (hn : ∀ c cd, s.srv.file ≠ .conn c cd) (sev : Int) (t : List Char) : ∃ err, own s sev t = .ok { s with err := err } := by
  unfold own
  split
  · dsimp only
    split
    · unfold toTrace
      cases hf : s.srv.file with
      | stderr => exact ⟨_, rfl⟩
      | null =>
        dsimp only
        unfold tracef
        rw [hf]
        exact ⟨_, rfl⟩
      | conn c cd => exact absurd hf (hn c cd)
    · exact ⟨_, rfl⟩
  · exact ⟨s.err, rfl⟩

theorem own_conn {s : LogSt} {c cd : Nat} (hf : s.srv.file = .conn c cd) (hg : c ∉ s.srv.gone) (sev : Int) (t : List Char) :
    ∃ err, own s sev t = .ok { s with err := err, srv := { s.srv with got := s.srv.got ++ (if sev ≤ s.level ∧ s.srv.mask.testBit 0 = true then [(c, t)] else []) } } := by
  unfold own
  by_cases hl : s.level ≥ sev
  · rw [if_pos hl]
    dsimp only
    by_cases hb : s.srv.mask.testBit 0 = true
    · rw [if_pos (by simp [active0, hf, hb]), if_pos ⟨hl, hb⟩]
      unfold toTrace
      simp only [hf]
      unfold tracef
      simp only [hf]
      rw [if_neg hg]
      exact ⟨_, rfl⟩
    · rw [if_neg (by simp [active0, hb]), if_neg (fun h => hb h.2), List.append_nil]
      exact ⟨_, rfl⟩
  · rw [if_neg hl, if_neg (fun h => hl h.1), List.append_nil]
    exact ⟨s.err, rfl⟩

/-- C98, what a client gets first: if it has selected `log` and warnings are logged, a message of the trace server comes before the announcement. -/
theorem C98_greeting (level : Int) (s : LogSt) (hh : LHist Any level s) (hp : s.srv.pc = .accept) (hw : s.said = true) (hq : s.srv.queue = []) (c mask fd fd1 fd2 : Nat) (hc : c ∉ s.srv.used) (hf : s.srv.fds fd = none) :
    ∃ s', Log.run s [.base (.setMask mask), .base (.connect c), .base (.serve fd), .base (.serve fd1), .base (.serve fd2)] = .ok s' ∧
      s'.srv.got = s.srv.got ++ (if 4 ≤ s.level ∧ mask.testBit 0 = true then [(c, activeMask mask)] else []) ++ [(c, active mask)] ∧ Served s'.srv c ∧ s'.srv.mask = mask := by
  have hist : Hist Any s.srv := by
    clear hp hw hq hc hf
    induction hh with
    | start => exact .start
    | step e _ _ h ih =>
      obtain ⟨es, hs, -⟩ := step_sim h
      have aux : ∀ {a b : St} {es : List TraceSrv.Ev}, Sim a es b → Hist Any a → Hist Any b := by
        intro a b es hs
        induction hs with
        | nil => exact id
        | cons h1 _ ih2 => exact fun hp => ih2 (.step _ hp True.intro h1)
      exact aux hs ih
  have hg : c ∉ s.srv.gone := fun h => hc (hist_gone hist c h)
  have hd := (hist_inv hist).dead (by rw [hp]; rfl)
  obtain ⟨v, level', err, pend, said⟩ := s
  dsimp only at *
  subst hw
  obtain ⟨err1, h1⟩ := own_idle (s := ⟨{ v with mask := mask, queue := v.queue ++ [c], used := c :: v.used }, level', err, pend, true⟩) hd 6 (accepted fd)
  let s3 : LogSt := ⟨{ setFd { v with mask := mask, queue := [c], used := c :: v.used } fd (some .trace) with file := .conn c fd, pc := .announce, cd := fd, queue := [] }, level', err1, pend, false⟩
  have e3 : Log.run ⟨v, level', err, pend, true⟩ [.base (.setMask mask), .base (.connect c), .base (.serve fd)] = .ok s3 := by
    simp only [Log.run, Log.step, TraceSrv.step, Res.ok_bind, Res.pure_eq]
    rw [if_neg hc]
    simp only [Log.serve, hp, hq, hf, List.nil_append] at h1 ⊢
    rw [h1]
    simp only [Res.ok_bind, bare, TraceSrv.serve, hf, Res.pure_eq]
    rfl
  obtain ⟨err4, h4⟩ := own_conn (s := s3) (c := c) (cd := fd) rfl hg 4 (activeMask mask)
  let s4 : LogSt := ⟨{ s3.srv with got := v.got ++ (if 4 ≤ level' ∧ mask.testBit 0 = true then [(c, activeMask mask)] else []) }, level', err4, pend, true⟩
  have e4 : Log.step s3 (.base (.serve fd1)) = .ok s4 := by
    show (own s3 4 (activeMask mask) >>= fun s => (pure { s with said := true } : Res LogSt)) = _
    rw [h4]
    rfl
  refine ⟨⟨{ s4.srv with got := s4.srv.got ++ [(c, active mask)], pc := .ignore }, level', err4, pend, false⟩, ?_, rfl, ⟨⟨fd, rfl⟩, hg, .inl rfl⟩, rfl⟩
  have e5 : Log.step s4 (.base (.serve fd2)) = .ok ⟨{ s4.srv with got := s4.srv.got ++ [(c, active mask)], pc := .ignore }, level', err4, pend, false⟩ := by
    show bare s4 fd2 = _
    unfold bare TraceSrv.serve
    show ((tracef s4.srv (active mask) >>= fun s => (pure { s with pc := .ignore } : Res St)) >>= fun t => (pure { s4 with srv := t, said := false } : Res LogSt)) = _
    have : tracef s4.srv (active mask) = .ok { s4.srv with got := s4.srv.got ++ [(c, active mask)] } := by
      show (if c ∈ v.gone then _ else _) = _
      rw [if_neg hg]
    rw [this]
    rfl
  have run3 : ∀ (s s3 : LogSt) (a b c d e : Log.Ev), Log.run s [a, b, c] = .ok s3 → Log.run s [a, b, c, d, e] = (do let s ← Log.step s3 d; let s ← Log.step s e; .ok s) := by
    intro s s3 a b c d e h
    obtain ⟨x, h1, h⟩ := bind_ok' (show (Log.step s a >>= fun s => Log.run s [b, c]) = .ok s3 from h)
    obtain ⟨y, h2, h⟩ := bind_ok' (show (Log.step x b >>= fun s => Log.run s [c]) = .ok s3 from h)
    obtain ⟨z, h3, h⟩ := bind_ok' (show (Log.step y c >>= fun s => Log.run s []) = .ok s3 from h)
    cases h
    simp only [Log.run, h1, h2, h3, Res.ok_bind]
  rw [run3 _ _ _ _ _ _ _ e3, e4, Res.ok_bind, e5]
  rfl

/-- The start, after the server has said that it accepts, is such a state. -/
theorem idle_example : ∃ s, LHist Any 5 s ∧ s.srv.pc = .accept ∧ s.said = true ∧ s.srv.queue = [] ∧ 7 ∉ s.srv.used ∧ s.srv.fds 3 = none := by
  refine ⟨_, .step (.base (.serve 0)) .start (fun _ _ => True.intro) rfl, rfl, rfl, rfl, ?_, rfl⟩
  intro h; cases h

/-- C98 as stated is false. `tracefile` is `stderr` until the first client is accepted (/repo/src/lib/log.c:78), so
1. a message that is logged while `log` is selected, for instance between the lines /repo/src/nfqlb/cmdTrace.c:73 and :83 of the first client, or because the mask was left in the shared memory by another process, is on `stderr` twice, whatever it is,
2. and so is everything else that is selected, once;
3. the message about the first connection is always there twice, if `log` is selected and the level is 6 or more;
4. a message that is copied to a client that has gone ends the process. -/
theorem C98_violated :
    (∀ text, (do
      let s ← Log.run (Log.start 5) [.base (.setMask 1), .say 5 text, .copy 0]
      return s.err) = Res.ok [(.msg, text), (.traced, text)]) ∧
    (∀ text, (do
      let s ← Log.run (Log.start 5) [.base (.setMask 2), .base (.write 1 text)]
      return s.err) = Res.ok [(.traced, text)]) ∧
    (∀ level : Int, 6 ≤ level → (do
      let s ← Log.run (Log.start level) [.base (.setMask 1), .base (.serve 0), .base (.connect 7), .base (.serve 3)]
      return (s.err.filter (fun x => x.2 = accepted 3)).length) = Res.ok 2) ∧
    (do
      let s ← Log.run (Log.start 5) [.base (.serve 0), .base (.setMask 1), .base (.connect 7), .base (.serve 3), .say 5 "n".toList, .base (.leave 7), .copy 0]
      return s.pend) = Res.die := by
  refine ⟨fun text => (by simp [Log.run, Log.step, TraceSrv.step, Log.start, Log.say, TraceSrv.start, active0, toTrace]), fun text => (by simp [Log.run, Log.step, TraceSrv.step, Log.start, TraceSrv.start, toTrace, show Nat.testBit 2 1 = true by decide]), ?_, by decide +kernel⟩
  intro level hl
  have h1 : ∃ s, Log.run (Log.start level) [.base (.setMask 1), .base (.serve 0), .base (.connect 7), .base (.serve 3)] = .ok s ∧ (s.err.filter (fun x => x.2 = accepted 3)).length = 2 := by
    by_cases h7 : 7 ≤ level
    · simp [Log.run, Log.step, TraceSrv.step, Log.start, Log.serve, TraceSrv.start, own, h7, hl, active0, toTrace, bare, TraceSrv.serve, setFd]
      decide +kernel
    · simp [Log.run, Log.step, TraceSrv.step, Log.start, Log.serve, TraceSrv.start, own, h7, hl, active0, toTrace, bare, TraceSrv.serve, setFd]
      decide +kernel
  obtain ⟨s, h2, h3⟩ := h1
  rw [h2, ← h3]
  rfl

/-- C98, the message of `C98_greeting`: eight hexadecimal digits that are the mask. -/
theorem C98_message (mask : Nat) (h : mask < 2^32) :
    ∃ t, activeMask mask = "Trace; active mask=0x".toList ++ t ++ ['\n'] ∧ t.length = 8 ∧ (∀ c ∈ t, c ∈ "0123456789abcdef".toList) ∧ Spec.FL.hexNum t = mask := by
  obtain ⟨t, h1, h2⟩ := C70_greeting mask h
  refine ⟨t, ?_, h2⟩
  have h3 : TraceSrv.hex8 mask = t := by
    have h4 : "Trace active, mask=0x".toList ++ TraceSrv.hex8 mask ++ ['\n'] = "Trace active, mask=0x".toList ++ t ++ ['\n'] := h1
    exact List.append_cancel_left (List.append_cancel_right h4)
  unfold activeMask
  rw [h3]

example : activeMask 0xff01 = "Trace; active mask=0x0000ff01\n".toList := by decide +kernel

/-- C98: while the server waits for a client and none has connected, its thread does nothing; no message is written. -/
theorem C98_idle (s : LogSt) (fd : Nat) (h1 : s.srv.pc = .accept) (h2 : s.said = true) (h3 : s.srv.queue = []) : Log.step s (.base (.serve fd)) = .ok s := by
  unfold Log.step Log.serve
  dsimp only
  rw [h1, h2]
  dsimp only
  rw [h3]

example : ∃ s, LHist Any 5 s ∧ s.srv.pc = .accept ∧ s.said = true ∧ s.srv.queue = [] ∧ s.srv.fds 3 = none :=
  let ⟨s, h⟩ := idle_example
  ⟨s, h.1, h.2.1, h.2.2.1, h.2.2.2.1, h.2.2.2.2.2⟩

theorem own_quiet (s : LogSt) (severity : Int) (text : List Char) (h : s.srv.mask = 0) :
    own s severity text = .ok { s with err := s.err ++ if severity ≤ s.level then [(.own, text)] else [] } := by
  unfold own
  by_cases hs : s.level ≥ severity
  · rw [if_pos hs, if_pos hs]
    dsimp only
    rw [if_neg (by simp [active0, h])]
  · rw [if_neg hs, if_neg hs, List.append_nil]

theorem step_accept (s : LogSt) (fd c : Nat) (q : List Nat) (h0 : s.srv.mask = 0) (h1 : s.srv.pc = .accept) (h2 : s.said = true) (h3 : s.srv.queue = c :: q) (h4 : s.srv.fds fd = none) :
    ∃ t, Log.step s (.base (.serve fd)) = .ok ⟨t, s.level, s.err ++ (if 6 ≤ s.level then [(.own, accepted fd)] else []), s.pend, false⟩ ∧ t.mask = 0 ∧ t.pc = .announce := by
  refine ⟨{ setFd s.srv fd (some .trace) with file := .conn c fd, pc := .announce, cd := fd, queue := q }, ?_, h0, rfl⟩
  unfold Log.step Log.serve
  dsimp only
  rw [h1, h2]
  dsimp only
  rw [h3, h4]
  dsimp only
  rw [own_quiet _ _ _ h0, Res.ok_bind]
  unfold bare TraceSrv.serve
  dsimp only
  rw [h1]
  dsimp only
  rw [h3, h4]
  rfl

theorem step_announce (s : LogSt) (fd : Nat) (h0 : s.srv.mask = 0) (h1 : s.srv.pc = .announce) (h2 : s.said = false) :
    Log.step s (.base (.serve fd)) = .ok { s with err := s.err ++ (if 4 ≤ s.level then [(.own, activeMask 0)] else []), said := true } := by
  unfold Log.step Log.serve
  dsimp only
  rw [h1, h2]
  dsimp only
  rw [own_quiet _ _ _ h0, Res.ok_bind, h0]
  rfl

/-- C98: the messages of the trace server until its first client has its greeting, when nothing is selected, for all levels, clients and free descriptors: they are these, in this order, with these severities, and each is on `stderr`
(once) if and only if the level is not below its severity. -/
theorem C98_transcript (level : Int) (client fd fd' : Nat) (hf : 3 ≤ fd) :
    (do
      let s ← Log.run (Log.start level) [.base (.serve fd'), .base (.connect client), .base (.serve fd), .base (.serve fd')]
      return s.err) =
    Res.ok (([((6 : Int), "Started Trace\n".toList), (7, "Trace: accept\n".toList), (6, "Trace; Accepted incoming connection. cd=".toList ++ Nat.toDigits 10 fd ++ ['\n']),
      (4, "Trace; active mask=0x00000000\n".toList)].filter (fun m => m.1 ≤ level)).map (fun m => (Tag.own, m.2))) := by
  have h1 : Log.step (Log.start level) (.base (.serve fd')) = .ok { Log.start level with err := (Log.start level).err ++ (if 7 ≤ level then [(.own, "Trace: accept\n".toList)] else []), said := true } := by
    show Log.serve (Log.start level) fd' = _
    unfold Log.serve
    dsimp only [Log.start, TraceSrv.start]
    rw [own_quiet _ _ _ rfl]
    rfl
  have h4 : activeMask 0 = "Trace; active mask=0x00000000\n".toList := by decide +kernel
  rw [Log.run, h1, Res.ok_bind, Log.run]
  generalize he : (Log.start level).err ++ (if 7 ≤ level then [(.own, "Trace: accept\n".toList)] else []) = e
  obtain ⟨s, h2, s1, s2, s3, s4, s5, s6, s7⟩ : ∃ s, Log.step { Log.start level with err := e, said := true } (.base (.connect client)) = .ok s ∧ s.srv.mask = 0 ∧ s.srv.pc = .accept ∧ s.said = true ∧
      s.srv.queue = [client] ∧ s.srv.fds fd = none ∧ s.level = level ∧ s.err = e := by
    refine ⟨_, rfl, rfl, rfl, rfl, rfl, ?_, rfl, rfl⟩
    show (if fd < 3 then some (Owner.other fd) else none) = none
    rw [if_neg (by omega)]
  rw [h2, Res.ok_bind, Log.run]
  obtain ⟨t, h3, t1, t2⟩ := step_accept s fd client [] s1 s2 s3 s4 s5
  rw [h3, Res.ok_bind, Log.run, step_announce _ _ t1 t2 rfl, Res.ok_bind, Log.run, Res.ok_bind]
  dsimp only
  rw [s6, s7, ← he, h4]
  unfold Log.start accepted CText.dec
  dsimp only
  generalize "Started Trace\n".toList = x1
  generalize "Trace: accept\n".toList = x2
  generalize "Trace; Accepted incoming connection. cd=".toList ++ Nat.toDigits 10 fd ++ ['\n'] = x3
  generalize "Trace; active mask=0x00000000\n".toList = x4
  refine congrArg Res.ok ?_
  by_cases h7 : 7 ≤ level
  · simp [h7, show 6 ≤ level by omega, show 4 ≤ level by omega]
  · by_cases h6 : 6 ≤ level
    · simp [h7, h6, show 4 ≤ level by omega]
    · by_cases h4 : 4 ≤ level
      · simp [h7, h6, h4]
      · simp [h7, h6, h4]

example : (do
      let s ← Log.run (Log.start 6) [.base (.serve 0), .base (.connect 7), .base (.serve 12), .base (.serve 0)]
      return s.err.map (fun x => String.ofList x.2)) = Res.ok ["Started Trace\n", "Trace; Accepted incoming connection. cd=12\n", "Trace; active mask=0x00000000\n"] := by decide +kernel

end Nfqlb.Props
