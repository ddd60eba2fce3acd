import Verif.Proof.TraceSrv
import Verif.Spec.Flow

/-! C70, C71 and C72: the trace server. -/

set_option autoImplicit false

namespace Nfqlb.Props

open Nfqlb Nfqlb.TraceSrv Nfqlb.Spec.TSrv

/-! ### C70 -/

/-- C70 (partial): whatever has happened before, if the trace server is idle then a client that selects `mask` and connects gets the announcement with its mask, and from then on exactly what other threads write of what it selected, in
that order, as long as it stays and no other client sets the mask. Missing: other clients at the same time, see `C70_violated`. -/
theorem C70_client_partial (s s' : St) (hh : Hist Any s) (hp : s.pc = .accept) (hq : s.queue = []) (c mask fd fd' : Nat) (hc : c ∉ s.used) (hf : s.fds fd = none) (es : List Ev) (he : ∀ e ∈ es, keepsMask e ∧ stays c e)
    (h : run s (.setMask mask :: .connect c :: .serve fd :: .serve fd' :: es) = .ok s') : s'.got = s.got ++ (c, active mask) :: (lines mask es).map (fun t => (c, t)) ∧ s'.mask = mask := by
  have hg : c ∉ s.gone := fun h => hc (hist_gone hh c h)
  obtain ⟨s1, h1, h⟩ := bind_ok' (show (step s (.setMask mask) >>= fun s => run s _) = .ok s' from h)
  simp only [step, Res.ok.injEq] at h1
  obtain ⟨s2, h2, h⟩ := bind_ok' (show (step s1 (.connect c) >>= fun s => run s _) = .ok s' from h)
  have hc1 : c ∉ s1.used := by rw [← h1]; exact hc
  simp only [step] at h2
  rw [if_neg hc1, Res.ok.injEq] at h2
  obtain ⟨s3, h3, h⟩ := bind_ok' (show (step s2 (.serve fd) >>= fun s => run s _) = .ok s' from h)
  have e2 : s2 = { s with mask := mask, queue := [c], used := c :: s.used } := by rw [← h2, ← h1]; simp [hq]
  simp only [step, serve] at h3
  rw [e2] at h3
  simp only [hp, hf, Res.ok.injEq] at h3
  obtain ⟨s4, h4, h⟩ := bind_ok' (show (step s3 (.serve fd') >>= fun s => run s _) = .ok s' from h)
  rw [← h3] at h4
  simp only [step, serve, tracef] at h4
  have hg' : ¬ (c ∈ (setFd { s with mask := mask, queue := [c], used := c :: s.used, pc := .accept } fd (some Owner.trace)).gone) := hg
  rw [if_neg hg'] at h4
  simp only [Res.ok_bind, Res.pure_eq, Res.ok.injEq] at h4
  have hs : Served s4 c := by
    rw [← h4]
    exact ⟨⟨fd, rfl⟩, hg, .inl rfl⟩
  obtain ⟨_, m1, g1⟩ := served_run es hs he h
  have m4 : s4.mask = mask := by rw [← h4]; rfl
  have g4 : s4.got = s.got ++ [(c, active mask)] := by rw [← h4]; rfl
  rw [m1, g1, m4, g4]
  exact ⟨by simp, rfl⟩

theorem run_append : ∀ (a b : List Ev) (s : St), run s (a ++ b) = (do let s ← run s a; run s b)
  | [], b, s => rfl
  | e :: a, b, s => by
    simp only [List.cons_append, run]
    cases step s e with
    | ok t => simp only [Res.ok_bind]; exact run_append a b t
    | die => rfl
    | ub => rfl
    | hang => rfl

/-- C70 (partial), with other threads that trace between the moments when the client is accepted and when it is told so: what they write comes before the announcement, so that the announcement need not be the first line. -/
theorem C70_early_partial (s s' : St) (hh : Hist Any s) (hp : s.pc = .accept) (hq : s.queue = []) (c mask fd fd' : Nat) (hc : c ∉ s.used) (hf : s.fds fd = none) (es1 es2 : List Ev)
    (h1 : ∀ e ∈ es1, keepsMask e ∧ stays c e ∧ ∀ f, e ≠ .serve f) (h2 : ∀ e ∈ es2, keepsMask e ∧ stays c e)
    (h : run s ([.setMask mask, .connect c, .serve fd] ++ (es1 ++ .serve fd' :: es2)) = .ok s') :
    s'.got = s.got ++ (lines mask es1 ++ active mask :: lines mask es2).map (fun t => (c, t)) ∧ s'.mask = mask := by
  have hg : c ∉ s.gone := fun h => hc (hist_gone hh c h)
  rw [run_append] at h
  obtain ⟨s3, h3, h⟩ := bind_ok' h
  have e3 : s3 = { setFd { s with mask := mask, queue := [c], used := c :: s.used } fd (some .trace) with file := .conn c fd, pc := .announce, cd := fd, queue := [] } := by
    simp only [run, step, Res.ok_bind] at h3
    rw [if_neg hc] at h3
    simp only [serve, hp, hq, hf, List.nil_append, Res.ok_bind, Res.ok.injEq] at h3
    rw [← h3]
    rfl
  rw [run_append] at h
  obtain ⟨s4, h4, h⟩ := bind_ok' h
  have key : ∀ (es : List Ev) (a b : St), ((∃ cd, a.file = .conn c cd) ∧ c ∉ a.gone ∧ a.pc = .announce) → (∀ e ∈ es, keepsMask e ∧ stays c e ∧ ∀ f, e ≠ .serve f) → run a es = .ok b →
      ((∃ cd, b.file = .conn c cd) ∧ c ∉ b.gone ∧ b.pc = .announce) ∧ b.mask = a.mask ∧ b.got = a.got ++ (lines a.mask es).map (fun t => (c, t)) := by
    intro es
    induction es with
    | nil => intro a b ha _ h; cases h; exact ⟨ha, rfl, by simp [lines]⟩
    | cons e es ih =>
      intro a b ha he h
      obtain ⟨a1, k1, k2⟩ := bind_ok' (show (step a e >>= fun s => run s es) = .ok b from h)
      obtain ⟨x1, x2, x3⟩ := accepted_step e ha (he e (by simp)).1 (he e (by simp)).2.1 (he e (by simp)).2.2 k1
      obtain ⟨y1, y2, y3⟩ := ih a1 b x1 (fun x hx => he x (by simp [hx])) k2
      refine ⟨y1, by rw [y2, x2], ?_⟩
      rw [y3, x3, x2, lines_cons a.mask e es, List.map_append, List.append_assoc]
  obtain ⟨⟨⟨cd, a1⟩, a2, a3⟩, a4, a5⟩ := key es1 s3 s4 (by rw [e3]; exact ⟨⟨fd, rfl⟩, hg, rfl⟩) h1 h4
  obtain ⟨s5, h5, h⟩ := bind_ok' (show (step s4 (.serve fd') >>= fun s => run s es2) = .ok s' from h)
  have m3 : s3.mask = mask := by rw [e3]; rfl
  have g3 : s3.got = s.got := by rw [e3]; rfl
  rw [m3] at a4 a5
  rw [g3] at a5
  simp only [step, serve, a3, tracef, a1] at h5
  rw [if_neg a2] at h5
  simp only [Res.ok_bind, Res.pure_eq, Res.ok.injEq] at h5
  obtain ⟨_, m1, g1⟩ := served_run es2 (c := c) (s := s5) (by rw [← h5]; exact ⟨⟨cd, rfl⟩, a2, .inl rfl⟩) h2 h
  have m5 : s5.mask = mask := by rw [← h5]; exact a4
  have g5 : s5.got = s4.got ++ [(c, active mask)] := by rw [← h5, ← a4]
  rw [m1, g1, m5, g5, a5]
  exact ⟨by simp, rfl⟩

/-- A thread traces a packet before the announcement. -/
example : (do
    let s ← run start ([.setMask 2, .connect 7, .serve 3] ++ ([.write 1 "p".toList] ++ .serve 0 :: [.write 1 "q".toList]))
    return s.got.map (fun x => (x.1, String.ofList x.2))) = Res.ok [(7, "p"), (7, "Trace active, mask=0x00000002\n"), (7, "q")] := by decide +kernel

theorem hex1 : ∀ d < 16, (if d < 10 then Char.ofNat (48 + d) else Char.ofNat (87 + d)) ∈ "0123456789abcdef".toList ∧ Spec.FL.hexDigit (if d < 10 then Char.ofNat (48 + d) else Char.ofNat (87 + d)) = some d := by decide +kernel

/-- C70: the first line that a client gets has the mask as eight hexadecimal digits. -/
theorem C70_greeting (mask : Nat) (h : mask < 2^32) : ∃ t, active mask = "Trace active, mask=0x".toList ++ t ++ ['\n'] ∧ t.length = 8 ∧ (∀ c ∈ t, c ∈ "0123456789abcdef".toList) ∧ Spec.FL.hexNum t = mask := by
  refine ⟨hex8 mask, rfl, by simp [hex8], ?_, ?_⟩
  · intro c hc
    unfold hex8 at hc
    rw [List.mem_map] at hc
    obtain ⟨i, -, rfl⟩ := hc
    exact (hex1 _ (Nat.mod_lt _ (by omega))).1
  · unfold hex8 Spec.FL.hexNum
    simp only [show List.range 8 = [0,1,2,3,4,5,6,7] from rfl, List.map_cons, List.map_nil, List.foldl_cons, List.foldl_nil]
    rw [(hex1 _ (Nat.mod_lt _ (by omega))).2, (hex1 _ (Nat.mod_lt _ (by omega))).2, (hex1 _ (Nat.mod_lt _ (by omega))).2, (hex1 _ (Nat.mod_lt _ (by omega))).2, (hex1 _ (Nat.mod_lt _ (by omega))).2, (hex1 _ (Nat.mod_lt _ (by omega))).2, (hex1 _ (Nat.mod_lt _ (by omega))).2, (hex1 _ (Nat.mod_lt _ (by omega))).2]
    simp only [Option.getD_some]
    omega

example : active 0x1abcdef = "Trace active, mask=0x01abcdef\n".toList := by decide +kernel

/-- After a client that was served has ended, by the time that the server accepts the next one nothing is selected, unless another client sets the mask, and nobody gets anything. -/
theorem C70_off_partial (s s' : St) (c : Nat) (hs : Served s c) (es : List Ev) (he : ∀ e ∈ es, keepsMask e) (h : run s (.leave c :: es) = .ok s') (hp : s'.pc = .accept) : s'.mask = 0 := by
  have h0 : Ending s := .inl (hs.2.2.elim .inl (fun h => .inr (.inl h)))
  rcases ending_run (.leave c :: es) h0 (fun e hm => by
    rcases List.mem_cons.1 hm with rfl | h1
    · exact True.intro
    · exact he e h1) h with (h1 | h1 | h1 | h1) | h1
  · rw [hp] at h1; cases h1
  · rw [hp] at h1; cases h1
  · rw [hp] at h1; cases h1
  · rw [hp] at h1; cases h1
  · exact h1

/-- A session: client 7 selects `flows` and `log`. -/
example : (do
    let s ← run start ([.openFd 3 0, .setMask 65, .connect 7, .serve 4, .serve 0, .write 6 "a".toList, .write 1 "b".toList, .serve 0, .write 0 "c".toList, .leave 7] ++ List.replicate 7 (.serve 0) ++ [.write 6 "d".toList])
    return (s.got.map (fun x => (x.1, String.ofList x.2)), s.mask, decide (s.file = .null), decide (s.pc = .accept))) =
    Res.ok ([(7, "Trace active, mask=0x00000041\n"), (7, "a"), (7, "c")], 0, true, true) := by decide +kernel

/-- C70 as stated is false when there are two clients. Client 8 selects `flows` while client 7, who selected `packet`, is served. Client 7 then gets what it has not selected and no longer what it has selected; and when it leaves the mask is
cleared (/repo/src/lib/log.c:129), so that client 8 is told that the mask is 0 and gets nothing at all. -/
theorem C70_violated : (do
    let s ← run start ([.setMask 2, .connect 7, .serve 3, .serve 0, .serve 0, .setMask 64, .connect 8, .write 6 "flow".toList, .write 1 "packet".toList, .leave 7] ++ List.replicate 6 (.serve 0) ++
      [.serve 3, .serve 0, .serve 0, .write 6 "flow".toList, .write 6 "flow".toList])
    return (s.got.map (fun x => (x.1, String.ofList x.2)), decide (s.file = .conn 8 3), decide (8 ∈ s.gone))) =
    Res.ok ([(7, "Trace active, mask=0x00000002\n"), (7, "flow"), (8, "Trace active, mask=0x00000000\n")], true, false) := by decide +kernel

/-! ### C71 -/

/-- C71 (partial): if clients end only while the server waits for that, no step of any thread stops the process, at any time: SIGPIPE is ignored whenever there is a connection whose client has gone. Missing: see `C71_violated`. -/
theorem C71_alive_partial (s : St) (hh : Hist Polite s) (e : Ev) : ∃ s', step s e = .ok s' := step_total (hist_pinv hh) e

/-- The server always comes back to accept: from every such state, once all the clients have gone that connected, at most eight steps of the server lead to the place where it accepts, or it was there. -/
theorem C71_again_partial (s : St) (hh : Hist Polite s) (hg : ∀ c cd, s.file = .conn c cd → c ∈ s.gone) : ∃ n s', n ≤ 8 ∧ run s (List.replicate n (.serve 0)) = .ok s' ∧ s'.pc = .accept := by
  have hp := hist_pinv hh
  obtain ⟨n, s', h1, h2, h3⟩ := comes_back hp hg
  exact ⟨n, s', h1, h2, h3⟩

/-- A session, with another thread that writes after the client has ended, is such a history. -/
example : ∃ s, Hist Polite s ∧ s.pc = .test ∧ s.gone = [7] ∧ s.mask = 64 := by
  have r : ∃ s1 s2 s3, run start [.setMask 64, .connect 7, .serve 3, .serve 0, .serve 0, .write 6 "a".toList] = .ok s1 ∧ step s1 (.leave 7) = .ok s2 ∧ run s2 [.late "b".toList, .serve 0] = .ok s3 ∧
      s1.file = .conn 7 3 ∧ s1.pc = .reading ∧ s3.pc = .test ∧ s3.gone = [7] ∧ s3.mask = 64 := ⟨_, _, _, rfl, rfl, rfl, rfl, rfl, rfl, rfl, rfl⟩
  obtain ⟨s1, s2, s3, h1, h2, h3, h4, h5, h6⟩ := r
  refine ⟨s3, hist_run _ (.step (.leave 7) (hist_run _ .start ?_ h1) ⟨⟨3, h4⟩, h5⟩ h2) ?_ h3, h6⟩ <;> simp [Polite]

/-- C71 as stated is false: a client that ends before the server has made SIGPIPE ignored (/repo/src/lib/log.c:120) terminates `nfqlb flowlb`: the announcement (:117) is written to a connection without a peer. The client may have ended
while it waited for another one to be served, or just after it was accepted. -/
theorem C71_violated :
    (do let s ← run start [.setMask 64, .connect 7, .leave 7, .serve 3, .serve 0]; return s.mask) = Res.die ∧
    (do let s ← run start [.setMask 64, .connect 7, .serve 3, .leave 7, .write 6 "a".toList]; return s.mask) = Res.die ∧
    (do let s ← run start [.setMask 64, .connect 7, .serve 3, .serve 0, .leave 7, .write 6 "a".toList]; return s.mask) = Res.die := by
  refine ⟨by decide +kernel, by decide +kernel, by decide +kernel⟩

/-! ### C72 -/

/-- C72 (partial): if no thread opens anything between `fclose(tracefile)` and `close(cd)`, the trace server never closes a descriptor of another thread. Missing: see `C72_violated`. -/
theorem C72_others_partial (s s' : St) (hh : Hist Quiet s) (fd : Nat) (h : step s (.serve fd) = .ok s') (f id : Nat) (ho : s.fds f = some (.other id)) : s'.fds f = some (.other id) :=
  serve_fds (hist_inv hh) (hist_qinv hh) h f id ho

/-- While a client is served its descriptor stays open, whatever other threads do. -/
theorem C72_own (s : St) (hh : Hist Any s) (c cd : Nat) (hf : s.file = .conn c cd) : s.fds cd = some .trace := by
  have hi := hist_inv hh
  cases hl : live s.pc with
  | false => exact absurd hf (hi.dead hl c cd)
  | true =>
    obtain ⟨c', h1, _⟩ := hi.file hl
    rw [hf] at h1
    cases h1
    exact hi.fd hl

/-- C72 as stated is false: `fclose` closes the descriptor (/repo/src/lib/log.c:132), so that another thread may get the same number before `close(cd)` (:134) closes it again, and with it the connection or file of the other thread. -/
theorem C72_violated : ∃ s s', run start ([.setMask 64, .connect 7, .serve 3, .serve 0, .serve 0, .leave 7] ++ List.replicate 4 (.serve 0) ++ [.openFd 3 42]) = .ok s ∧ s.fds 3 = some (.other 42) ∧
    step s (.serve 0) = .ok s' ∧ s'.fds 3 = none := ⟨_, _, rfl, rfl, rfl, rfl⟩

/-- The same without the other thread. -/
example : ∃ s s', run start ([.openFd 4 42, .setMask 64, .connect 7, .serve 3, .serve 0, .serve 0, .leave 7] ++ List.replicate 4 (.serve 0)) = .ok s ∧ s.pc = .close ∧ s.fds 4 = some (.other 42) ∧
    step s (.serve 0) = .ok s' ∧ s'.fds 4 = some (.other 42) ∧ s'.fds 3 = none := ⟨_, _, rfl, rfl, rfl, rfl, rfl, rfl⟩

end Nfqlb.Props
