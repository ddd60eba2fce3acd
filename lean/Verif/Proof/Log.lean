import Verif.Spec.Log
import Verif.Proof.TraceSrv

/-! Lemmas about the log. -/

set_option autoImplicit false

namespace Nfqlb.Log

open Nfqlb Nfqlb.TraceSrv Nfqlb.Spec.TSrv Nfqlb.Spec.Log

theorem toTrace_ok {s s' : LogSt} {t : List Char} (h : toTrace s t = .ok s') :
    TraceSrv.step s.srv (.late t) = .ok s'.srv ∧ s'.level = s.level ∧ s'.pend = s.pend ∧ s'.said = s.said ∧
      (s.srv.file = .stderr ∧ s'.srv = s.srv ∧ s'.err = s.err ++ [(.traced, t)] ∨ s.srv.file ≠ .stderr ∧ s'.err = s.err) := by
  unfold toTrace at h
  cases hf : s.srv.file with
  | stderr =>
    rw [hf] at h
    cases h
    refine ⟨?_, rfl, rfl, rfl, .inl ⟨rfl, rfl, rfl⟩⟩
    show tracef s.srv t = _
    unfold tracef
    rw [hf]
  | null =>
    rw [hf] at h
    obtain ⟨a, h1, h2⟩ := bind_ok' h
    cases h2
    exact ⟨h1, rfl, rfl, rfl, .inr ⟨by simp, rfl⟩⟩
  | conn c cd =>
    rw [hf] at h
    obtain ⟨a, h1, h2⟩ := bind_ok' h
    cases h2
    exact ⟨h1, rfl, rfl, rfl, .inr ⟨by simp, rfl⟩⟩

theorem toTrace_total {s : LogSt} {t : List Char} {r : St} (h : TraceSrv.step s.srv (.late t) = .ok r) : ∃ s', toTrace s t = .ok s' := by
  have h' : tracef s.srv t = .ok r := h
  unfold toTrace
  cases hf : s.srv.file <;> dsimp only
  · rw [h']; exact ⟨_, rfl⟩
  · exact ⟨_, rfl⟩
  · rw [h']; exact ⟨_, rfl⟩

/-- The steps of the trace server that a step with the log makes. -/
inductive Sim : St → List TraceSrv.Ev → St → Prop
  | nil (s : St) : Sim s [] s
  | cons {s s1 s2 : St} {e : TraceSrv.Ev} {es : List TraceSrv.Ev} : TraceSrv.step s e = .ok s1 → Sim s1 es s2 → Sim s (e :: es) s2

theorem Sim.append {s s1 s2 : St} {a b : List TraceSrv.Ev} (h1 : Sim s a s1) (h2 : Sim s1 b s2) : Sim s (a ++ b) s2 := by
  induction h1 with
  | nil => exact h2
  | cons h _ ih => exact .cons h (ih h2)

theorem Sim.one {s s1 : St} {e : TraceSrv.Ev} (h : TraceSrv.step s e = .ok s1) : Sim s [e] s1 := .cons h (.nil _)

theorem Sim.run {s s1 : St} {a : List TraceSrv.Ev} (h : Sim s a s1) : TraceSrv.run s a = .ok s1 := by
  induction h with
  | nil => rfl
  | cons h _ ih => simp only [TraceSrv.run, h, Res.ok_bind]; exact ih

theorem own_ok {s s' : LogSt} {sev : Int} {t : List Char} (h : own s sev t = .ok s') :
    (∃ es, (∀ e ∈ es, e = .late t) ∧ Sim s.srv es s'.srv) ∧ s'.level = s.level ∧ s'.pend = s.pend ∧ s'.said = s.said ∧
      (∃ new, s'.err = s.err ++ new ∧ (∀ x ∈ new, x.1 = .own ∨ x.1 = .traced ∧ s.srv.file = .stderr ∧ s.srv.mask.testBit 0 = true)) := by
  unfold own at h
  by_cases hl : s.level ≥ sev
  · rw [if_pos hl] at h
    dsimp only at h
    by_cases ha : active0 { s with err := s.err ++ [(Tag.own, t)] } = true
    · rw [if_pos ha] at h
      obtain ⟨h1, h2, h3, h4, h5⟩ := toTrace_ok h
      refine ⟨⟨[.late t], by simp, .one h1⟩, h2, h3, h4, ?_⟩
      have hb : s.srv.mask.testBit 0 = true := by
        unfold active0 at ha
        simp only [Bool.and_eq_true] at ha
        exact ha.2
      rcases h5 with ⟨f, -, e⟩ | ⟨f, e⟩
      · refine ⟨[(.own, t), (.traced, t)], by rw [e]; simp, fun x hx => ?_⟩
        rcases List.mem_cons.1 hx with rfl | hx
        · exact .inl rfl
        · rw [List.mem_singleton] at hx; subst hx; exact .inr ⟨rfl, f, hb⟩
      · exact ⟨[(.own, t)], by rw [e], fun x hx => by rw [List.mem_singleton] at hx; subst hx; exact .inl rfl⟩
    · rw [if_neg ha] at h
      cases h
      exact ⟨⟨[], by simp, .nil _⟩, rfl, rfl, rfl, [(.own, t)], rfl, fun x hx => by rw [List.mem_singleton] at hx; subst hx; exact .inl rfl⟩
  · rw [if_neg hl] at h
    cases h
    exact ⟨⟨[], by simp, .nil _⟩, rfl, rfl, rfl, [], by simp, by simp⟩

theorem bare_ok {s s' : LogSt} {fd : Nat} (h : bare s fd = .ok s') : Sim s.srv [.serve fd] s'.srv ∧ s'.level = s.level ∧ s'.pend = s.pend ∧ s'.err = s.err := by
  unfold bare at h
  obtain ⟨a, h1, h2⟩ := bind_ok' h
  cases h2
  exact ⟨.one h1, rfl, rfl, rfl⟩

/-- Events of the trace server, and messages, which are written late. -/
def Mild (fd : Nat) (e : TraceSrv.Ev) : Prop := e = .serve fd ∨ ∃ t, e = .late t

theorem serve_ok {s s' : LogSt} {fd : Nat} (h : Log.serve s fd = .ok s') :
    (∃ es, (∀ e ∈ es, Mild fd e) ∧ Sim s.srv es s'.srv) ∧ s'.level = s.level ∧ s'.pend = s.pend ∧
      (∃ new, s'.err = s.err ++ new ∧ ∀ x ∈ new, x.1 = .own ∨ x.1 = .traced ∧ s.srv.mask.testBit 0 = true ∧ s.srv.file = .stderr) := by
  have hbare : ∀ {s s' : LogSt}, bare s fd = .ok s' → (∃ es, (∀ e ∈ es, Mild fd e) ∧ Sim s.srv es s'.srv) ∧ s'.level = s.level ∧ s'.pend = s.pend ∧
      (∃ new, s'.err = s.err ++ new ∧ ∀ x ∈ new, x.1 = .own ∨ x.1 = .traced ∧ s.srv.mask.testBit 0 = true ∧ s.srv.file = .stderr) := by
    intro s s' h
    obtain ⟨h1, h2, h3, h4⟩ := bare_ok h
    exact ⟨⟨_, by simp [Mild], h1⟩, h2, h3, [], by simp [h4], by simp⟩
  unfold Log.serve at h
  split at h
  · obtain ⟨a, h1, h2⟩ := bind_ok' h
    cases h2
    obtain ⟨⟨es, e1, e2⟩, h3, h4, h5, new, h6, h7⟩ := own_ok h1
    exact ⟨⟨es, fun e he => .inr ⟨_, e1 e he⟩, e2⟩, h3, h4, new, h6, fun x hx => (h7 x hx).imp id (fun ⟨a, b, c⟩ => ⟨a, c, b⟩)⟩
  · split at h
    · obtain ⟨a, h1, h2⟩ := bind_ok' h
      obtain ⟨⟨es, e1, e2⟩, h3, h4, h5, new, h6, h7⟩ := own_ok h1
      obtain ⟨k1, k2, k3, k4⟩ := bare_ok h2
      refine ⟨⟨es ++ [.serve fd], fun e he => ?_, e2.append k1⟩, k2.trans h3, k3.trans h4, new, by rw [k4, h6], fun x hx => (h7 x hx).imp id (fun ⟨a, b, c⟩ => ⟨a, c, b⟩)⟩
      rcases List.mem_append.1 he with h | h
      · exact .inr ⟨_, e1 e h⟩
      · rw [List.mem_singleton] at h; exact .inl h
    · cases h
      exact ⟨⟨[], by simp, .nil _⟩, rfl, rfl, [], by simp, by simp⟩
  · obtain ⟨a, h1, h2⟩ := bind_ok' h
    cases h2
    obtain ⟨⟨es, e1, e2⟩, h3, h4, h5, new, h6, h7⟩ := own_ok h1
    exact ⟨⟨es, fun e he => .inr ⟨_, e1 e he⟩, e2⟩, h3, h4, new, h6, fun x hx => (h7 x hx).imp id (fun ⟨a, b, c⟩ => ⟨a, c, b⟩)⟩
  · rename_i hpc
    obtain ⟨a, h1, h2⟩ := bind_ok' h
    obtain ⟨k1, k2, k3, k4⟩ := bare_ok h1
    obtain ⟨⟨es, e1, e2⟩, h3, h4, h5, new, h6, h7⟩ := own_ok h2
    have hs : a.srv = { s.srv with ign := false, pc := .accept } := by
      unfold bare at h1
      obtain ⟨b, g1, g2⟩ := bind_ok' h1
      cases g2
      unfold TraceSrv.serve at g1
      rw [hpc] at g1
      cases g1
      rfl
    refine ⟨⟨.serve fd :: es, fun e he => ?_, k1.append e2⟩, h3.trans k2, h4.trans k3, new, by rw [h6, k4], fun x hx => (h7 x hx).imp id (fun ⟨a, b, c⟩ => ?_)⟩
    · rcases List.mem_cons.1 he with h | h
      · exact .inl h
      · exact .inr ⟨_, e1 e h⟩
    · rw [hs] at b c; exact ⟨a, c, b⟩
  · exact hbare h

/-- What one step with the log does to the trace server. -/
theorem step_sim {s s' : LogSt} {e : Ev} (h : Log.step s e = .ok s') :
    ∃ es, Sim s.srv es s'.srv ∧ ∀ b ∈ es, e = .base b ∨ ∃ t, b = .late t := by
  cases e with
  | base b =>
    cases b with
    | write bit t =>
      simp only [Log.step] at h
      by_cases hb : s.srv.mask.testBit bit = true
      · rw [if_pos hb] at h
        exact ⟨[.late t], .one (toTrace_ok h).1, by simp⟩
      · rw [if_neg hb] at h
        cases h; exact ⟨[], .nil _, by simp⟩
    | late t => exact ⟨[.late t], .one (toTrace_ok h).1, by simp⟩
    | serve fd =>
      obtain ⟨⟨es, h1, h2⟩, -⟩ := serve_ok h
      exact ⟨es, h2, fun b hb => (h1 b hb).imp (fun h => by rw [h]) id⟩
    | setMask m => obtain ⟨a, h1, h2⟩ := bind_ok' h; cases h2; exact ⟨_, .one h1, by simp⟩
    | connect c => obtain ⟨a, h1, h2⟩ := bind_ok' h; cases h2; exact ⟨_, .one h1, by simp⟩
    | leave c => obtain ⟨a, h1, h2⟩ := bind_ok' h; cases h2; exact ⟨_, .one h1, by simp⟩
    | openFd fd i => obtain ⟨a, h1, h2⟩ := bind_ok' h; cases h2; exact ⟨_, .one h1, by simp⟩
    | closeFd fd i => obtain ⟨a, h1, h2⟩ := bind_ok' h; cases h2; exact ⟨_, .one h1, by simp⟩
  | setLevel n => cases h; exact ⟨[], .nil _, by simp⟩
  | say sev t =>
    cases h
    refine ⟨[], ?_, by simp⟩
    have : (Log.say s sev t).srv = s.srv := by
      unfold Log.say
      split
      · dsimp only; split <;> rfl
      · rfl
    rw [this]
    exact .nil _
  | copy k =>
    simp only [Log.step] at h
    cases hk : s.pend[k]? with
    | none => rw [hk] at h; cases h; exact ⟨[], .nil _, by simp⟩
    | some t => rw [hk] at h; exact ⟨[.late t], .one (toTrace_ok h).1, by simp⟩

theorem step_level {s s' : LogSt} {e : Ev} (h : Log.step s e = .ok s') (hn : ∀ n, e ≠ .setLevel n) : s'.level = s.level := by
  cases e with
  | base b =>
    cases b with
    | write bit t =>
      simp only [Log.step] at h
      by_cases hb : s.srv.mask.testBit bit = true
      · rw [if_pos hb] at h; exact (toTrace_ok h).2.1
      · rw [if_neg hb] at h; cases h; rfl
    | late t => exact (toTrace_ok h).2.1
    | serve fd => exact (serve_ok h).2.1
    | setMask m => obtain ⟨a, h1, h2⟩ := bind_ok' h; cases h2; rfl
    | connect c => obtain ⟨a, h1, h2⟩ := bind_ok' h; cases h2; rfl
    | leave c => obtain ⟨a, h1, h2⟩ := bind_ok' h; cases h2; rfl
    | openFd fd i => obtain ⟨a, h1, h2⟩ := bind_ok' h; cases h2; rfl
    | closeFd fd i => obtain ⟨a, h1, h2⟩ := bind_ok' h; cases h2; rfl
  | setLevel n => exact absurd rfl (hn n)
  | say sev t =>
    cases h
    unfold Log.say
    split
    · dsimp only; split <;> rfl
    · rfl
  | copy k =>
    simp only [Log.step] at h
    cases hk : s.pend[k]? with
    | none => rw [hk] at h; cases h; rfl
    | some t => rw [hk] at h; exact (toTrace_ok h).2.1

/-- What a step adds to `stderr`. -/
theorem step_err {s s' : LogSt} {e : Ev} (h : Log.step s e = .ok s') :
    (∃ new, s'.err = s.err ++ new ∧ (∀ x ∈ new, x.1 = .own ∨ x.1 = .traced ∧ s.srv.file = .stderr) ∧ (∀ sev t, e = .say sev t → ¬ sev ≤ s.level)) ∨
    ∃ sev t, e = .say sev t ∧ sev ≤ s.level ∧ s'.err = s.err ++ [(.msg, t)] := by
  have tr : ∀ {s s' : LogSt} {t : List Char}, toTrace s t = .ok s' → ∃ new, s'.err = s.err ++ new ∧ (∀ x ∈ new, x.1 = .own ∨ x.1 = .traced ∧ s.srv.file = .stderr) := by
    intro s s' t h
    obtain ⟨-, -, -, -, ⟨f, -, h⟩ | ⟨f, h⟩⟩ := toTrace_ok h
    · exact ⟨_, h, fun x hx => by rw [List.mem_singleton] at hx; subst hx; exact .inr ⟨rfl, f⟩⟩
    · exact ⟨[], by simp [h], by simp⟩
  cases e with
  | base b =>
    left
    have : ∃ new, s'.err = s.err ++ new ∧ (∀ x ∈ new, x.1 = .own ∨ x.1 = .traced ∧ s.srv.file = .stderr) := by
      cases b with
      | write bit t =>
        simp only [Log.step] at h
        by_cases hb : s.srv.mask.testBit bit = true
        · rw [if_pos hb] at h; exact tr h
        · rw [if_neg hb] at h; cases h; exact ⟨[], by simp, by simp⟩
      | late t => exact tr h
      | serve fd =>
        obtain ⟨-, -, -, new, h1, h2⟩ := serve_ok h
        exact ⟨new, h1, fun x hx => (h2 x hx).imp id (fun ⟨a, _, b⟩ => ⟨a, b⟩)⟩
      | setMask m => obtain ⟨a, h1, h2⟩ := bind_ok' h; cases h2; exact ⟨[], by simp, by simp⟩
      | connect c => obtain ⟨a, h1, h2⟩ := bind_ok' h; cases h2; exact ⟨[], by simp, by simp⟩
      | leave c => obtain ⟨a, h1, h2⟩ := bind_ok' h; cases h2; exact ⟨[], by simp, by simp⟩
      | openFd fd i => obtain ⟨a, h1, h2⟩ := bind_ok' h; cases h2; exact ⟨[], by simp, by simp⟩
      | closeFd fd i => obtain ⟨a, h1, h2⟩ := bind_ok' h; cases h2; exact ⟨[], by simp, by simp⟩
    obtain ⟨new, h1, h2⟩ := this
    exact ⟨new, h1, h2, fun _ _ h => by cases h⟩
  | setLevel n => cases h; exact .inl ⟨[], by simp, by simp, fun _ _ h => by cases h⟩
  | say sev t =>
    cases h
    by_cases hl : s.level ≥ sev
    · right
      refine ⟨sev, t, rfl, hl, ?_⟩
      unfold Log.say
      rw [if_pos hl]
      dsimp only
      split <;> rfl
    · left
      refine ⟨[], ?_, by simp, fun _ _ h => by cases h; exact hl⟩
      unfold Log.say
      rw [if_neg hl]
      simp
  | copy k =>
    simp only [Log.step] at h
    left
    cases hk : s.pend[k]? with
    | none => rw [hk] at h; cases h; exact ⟨[], by simp, by simp, fun _ _ h => by cases h⟩
    | some t =>
      rw [hk] at h
      obtain ⟨new, h1, h2⟩ := tr h
      exact ⟨new, h1, h2, fun _ _ h => by cases h⟩

end Nfqlb.Log
