import Verif.Proof.RemoteCmd

/-! What a client sends is what the server gets; what the reader does with any input. -/

set_option autoImplicit false

namespace Nfqlb.Remote

open Nfqlb Nfqlb.Spec.Argv Nfqlb.Spec.Rem Nfqlb.Argv

/-! ### Requests -/

theorem joined_clean {l : List (List Char)} (h : ∀ t ∈ l, Clean t) : Clean (joined l) := by
  have : ∀ (x : Char), x ≠ ',' → ∀ l : List (List Char), (∀ t ∈ l, x ∉ t) → x ∉ joined l := by
    intro x hx l
    induction l with
    | nil => intro _; simp [joined]
    | cons t l ih =>
      intro h
      cases l with
      | nil => simpa [joined] using h t (by simp)
      | cons u r =>
        have e : joined (t :: u :: r) = t ++ ',' :: joined (u :: r) := by simp [joined, List.intercalate]
        rw [e]
        have := ih (fun y hy => h y (by simp only [List.mem_cons] at hy ⊢; exact .inr hy))
        simp only [List.mem_append, List.mem_cons, not_or]
        exact ⟨h t (by simp), hx, this⟩
  exact ⟨this _ (by decide) l (fun t ht => (h t ht).1), this _ (by decide) l (fun t ht => (h t ht).2)⟩

theorem trim_id {t : List Char} (h : t.head? ≠ some ' ') : trim t = t := by
  unfold trim
  cases t with
  | nil => rfl
  | cons c r =>
    rw [List.dropWhile_cons, if_neg]
    intro e
    simp only [beq_iff_eq] at e
    exact h (by simp [e])

theorem map_trim_id : ∀ (l : List (List Char)), (∀ t ∈ l, t.head? ≠ some ' ') → l.map trim = l
  | [], _ => rfl
  | t :: l, h => by
    rw [List.map_cons, trim_id (h t (by simp)), map_trim_id l (fun x hx => h x (by simp [hx]))]

theorem head_space {t : List Char} (h : ' ' ∉ t) : t.head? ≠ some ' ' := by
  intro e
  cases t with
  | nil => cases e
  | cons c r =>
    have : c = ' ' := Option.some.inj e
    exact h (by simp [this])

/-- A list of protocols or addresses. -/
theorem listField_items {l : List (List Char)} (m : Mem) (h : Items l) (hl : (joined l).length ≤ 1000) : ∃ m', listField none (joined l) ", ".toList m = .ok (some l, m') := by
  have hs : Splits ", ".toList (joined l) l := by
    refine splits_joined (by decide) l (fun t ht => ⟨(h.2 t ht).1, ?_⟩)
    intro c hc e
    have : c = ',' ∨ c = ' ' := by simpa using e
    rcases this with rfl | rfl
    · exact (h.2 t ht).2.2.1 hc
    · exact (h.2 t ht).2.2.2 hc
  have e := mkargv_spec (by decide) (by omega) hs
  rw [if_neg h.1, map_trim_id l (fun t ht => head_space (h.2 t ht).2.2.2)] at e
  unfold listField
  dsimp only
  rw [e]
  exact ⟨_, rfl⟩

/-- A list of matches. -/
theorem listField_match {l : List (List Char)} (m : Mem) (h : MatchItems l) (hl : (joined l).length ≤ 1000) : ∃ m', listField none (joined l) ",".toList m = .ok (some l, m') := by
  have hs : Splits ",".toList (joined l) l := by
    refine splits_joined (by decide) l (fun t ht => ⟨(h.2 t ht).1, ?_⟩)
    intro c hc e
    have : c = ',' := by simpa using e
    subst this
    exact (h.2 t ht).2.2.1 hc
  have e := mkargv_spec (by decide) (by omega) hs
  rw [if_neg h.1, map_trim_id l (fun t ht => (h.2 t ht).2.2.2)] at e
  unfold listField
  dsimp only
  rw [e]
  exact ⟨_, rfl⟩

theorem read_dports (v : Option (List Char)) (rest : List Char) (c : FlowCmd) (m : Mem) (h : c.dports = none) (hv : ∀ x, v = some x → Clean x) (hl : tooLong v = false) :
    ∃ m', readLoop (outOpt "dports" v ++ rest) c m = readLoop rest { c with dports := v } m' := by
  cases v with
  | none => exact ⟨m, by rw [show ({ c with dports := none } : FlowCmd) = c from by rw [← h]]; rfl⟩
  | some x =>
    have : x.length ≤ 1000 := by simpa [tooLong] using hl
    exact ⟨_, readLoop_field rest (hv x rfl) (by omega) ⟨by decide, ⟨by decide, by decide⟩, by decide, by decide⟩ (set_dports c m x h)⟩

theorem read_sports (v : Option (List Char)) (rest : List Char) (c : FlowCmd) (m : Mem) (h : c.sports = none) (hv : ∀ x, v = some x → Clean x) (hl : tooLong v = false) :
    ∃ m', readLoop (outOpt "sports" v ++ rest) c m = readLoop rest { c with sports := v } m' := by
  cases v with
  | none => exact ⟨m, by rw [show ({ c with sports := none } : FlowCmd) = c from by rw [← h]]; rfl⟩
  | some x =>
    have : x.length ≤ 1000 := by simpa [tooLong] using hl
    exact ⟨_, readLoop_field rest (hv x rfl) (by omega) ⟨by decide, ⟨by decide, by decide⟩, by decide, by decide⟩ (set_sports c m x h)⟩

theorem read_protocols (v : Option (List (List Char))) (rest : List Char) (c : FlowCmd) (m : Mem) (h : c.protocols = none) (hv : ∀ x, v = some x → Items x) (hl : tooLong (v.map joined) = false) :
    ∃ m', readLoop (outOpt "protocols" (v.map joined) ++ rest) c m = readLoop rest { c with protocols := v } m' := by
  cases v with
  | none => exact ⟨m, by rw [show ({ c with protocols := none } : FlowCmd) = c from by rw [← h]]; rfl⟩
  | some x =>
    have hx : (joined x).length ≤ 1000 := by simpa [tooLong] using hl
    obtain ⟨m', e⟩ := listField_items m (hv x rfl) hx
    refine ⟨m', readLoop_field rest (joined_clean (fun t ht => ((hv x rfl).2 t ht).2.1)) (by omega) ⟨by decide, ⟨by decide, by decide⟩, by decide, by decide⟩ ?_⟩
    rw [set_protocols, h, e]; rfl

theorem read_dsts (v : Option (List (List Char))) (rest : List Char) (c : FlowCmd) (m : Mem) (h : c.dsts = none) (hv : ∀ x, v = some x → Items x) (hl : tooLong (v.map joined) = false) :
    ∃ m', readLoop (outOpt "dsts" (v.map joined) ++ rest) c m = readLoop rest { c with dsts := v } m' := by
  cases v with
  | none => exact ⟨m, by rw [show ({ c with dsts := none } : FlowCmd) = c from by rw [← h]]; rfl⟩
  | some x =>
    have hx : (joined x).length ≤ 1000 := by simpa [tooLong] using hl
    obtain ⟨m', e⟩ := listField_items m (hv x rfl) hx
    refine ⟨m', readLoop_field rest (joined_clean (fun t ht => ((hv x rfl).2 t ht).2.1)) (by omega) ⟨by decide, ⟨by decide, by decide⟩, by decide, by decide⟩ ?_⟩
    rw [set_dsts, h, e]; rfl

theorem read_srcs (v : Option (List (List Char))) (rest : List Char) (c : FlowCmd) (m : Mem) (h : c.srcs = none) (hv : ∀ x, v = some x → Items x) (hl : tooLong (v.map joined) = false) :
    ∃ m', readLoop (outOpt "srcs" (v.map joined) ++ rest) c m = readLoop rest { c with srcs := v } m' := by
  cases v with
  | none => exact ⟨m, by rw [show ({ c with srcs := none } : FlowCmd) = c from by rw [← h]]; rfl⟩
  | some x =>
    have hx : (joined x).length ≤ 1000 := by simpa [tooLong] using hl
    obtain ⟨m', e⟩ := listField_items m (hv x rfl) hx
    refine ⟨m', readLoop_field rest (joined_clean (fun t ht => ((hv x rfl).2 t ht).2.1)) (by omega) ⟨by decide, ⟨by decide, by decide⟩, by decide, by decide⟩ ?_⟩
    rw [set_srcs, h, e]; rfl

theorem read_match (v : Option (List (List Char))) (rest : List Char) (c : FlowCmd) (m : Mem) (h : c.mtch = none) (hv : ∀ x, v = some x → MatchItems x) (hl : tooLong (v.map joined) = false) :
    ∃ m', readLoop (outOpt "match" (v.map joined) ++ rest) c m = readLoop rest { c with mtch := v } m' := by
  cases v with
  | none => exact ⟨m, by rw [show ({ c with mtch := none } : FlowCmd) = c from by rw [← h]]; rfl⟩
  | some x =>
    have hx : (joined x).length ≤ 1000 := by simpa [tooLong] using hl
    obtain ⟨m', e⟩ := listField_match m (hv x rfl) hx
    refine ⟨m', readLoop_field rest (joined_clean (fun t ht => ((hv x rfl).2 t ht).2.1)) (by omega) ⟨by decide, ⟨by decide, by decide⟩, by decide, by decide⟩ ?_⟩
    rw [set_match, h, e]; rfl

theorem read_priority (v : Option Int) (rest : List Char) (c : FlowCmd) (m : Mem) (h : c.priority = 0) (hv : ∀ x, v = some x → -2147483648 ≤ x ∧ x ≤ 2147483647) :
    readLoop (outOpt "priority" (v.map decimal) ++ rest) c m = readLoop rest { c with priority := v.getD 0 } m := by
  cases v with
  | none => rw [show ({ c with priority := (none : Option _).getD 0 } : FlowCmd) = c from by rw [Option.getD_none, ← h]]; rfl
  | some x =>
    have := hv x rfl
    have hl := decimal_length x this.1 this.2
    refine readLoop_field rest (decimal_clean x) (by omega) ⟨by decide, ⟨by decide, by decide⟩, by decide, by decide⟩ ?_
    rw [set_priority, atoi_decimal x this.1 this.2]; rfl

theorem read_udpencap (v : Option Nat) (rest : List Char) (c : FlowCmd) (m : Mem) (h : c.udpencap = 0) (hv : ∀ x, v = some x → x < 65536) :
    readLoop (outOpt "udpencap" (v.map (fun n : Nat => decimal (n : Int))) ++ rest) c m = readLoop rest { c with udpencap := v.getD 0 } m := by
  cases v with
  | none => rw [show ({ c with udpencap := (none : Option _).getD 0 } : FlowCmd) = c from by rw [Option.getD_none, ← h]]; rfl
  | some x =>
    have := hv x rfl
    have hl := decimal_length x (by omega) (by omega)
    refine readLoop_field (arg := decimal x) rest (decimal_clean x) (by omega) ⟨by decide, ⟨by decide, by decide⟩, by decide, by decide⟩ ?_
    rw [set_udpencap, atoi_decimal x (by omega) (by omega)]
    have e : ((x : Int) % 65536).toNat = x := by omega
    rw [e]; rfl

theorem via {A X : List Char} {c c' d : FlowCmd} {m : Mem} (h : ∃ m1, readLoop A c m = readLoop X c' m1) (k : ∀ m1, ∃ m', readLoop X c' m1 = .ok ⟨0, d, m', []⟩) : ∃ m', readLoop A c m = .ok ⟨0, d, m', []⟩ := by
  obtain ⟨m1, e⟩ := h
  rw [e]
  exact k m1

/-- The request of `flow-set`. -/
theorem read_set (r : Request) (h : r.WF) (hc : setChecks r.opts = true) (m : Mem) : ∃ m', readFlowCmd (setText r.opts) m = .ok ⟨0, r.received, m', []⟩ := by
  unfold setChecks at hc
  simp only [Bool.and_eq_true, Bool.not_eq_true'] at hc
  obtain ⟨⟨⟨⟨⟨⟨⟨⟨c1, c2⟩, c3⟩, c4⟩, c5⟩, c6⟩, c7⟩, _⟩, _⟩ := hc
  have ht : r.target.length ≤ 255 := by
    have := of_decide_eq_false c1
    exact Nat.le_of_not_lt this
  have e : setText r.opts = outLine "action" "set".toList ++ (outLine "name" r.name ++ (outLine "target" r.target ++ (outOpt "priority" (r.priority.map decimal) ++ (outOpt "protocols" (r.protocols.map joined) ++
      (outOpt "dsts" (r.dsts.map joined) ++ (outOpt "srcs" (r.srcs.map joined) ++ (outOpt "dports" r.dports ++ (outOpt "sports" r.sports ++ (outOpt "match" (r.mtch.map joined) ++
      (outOpt "udpencap" (r.udpencap.map (fun n : Nat => decimal (n : Int))) ++ (outLine "eoc" [] ++ []))))))))))) := by
    unfold setText
    simp only [List.append_assoc, List.append_nil, Request.opts]
  rw [e]
  unfold readFlowCmd
  rw [readLoop_field _ ⟨by decide, by decide⟩ (by decide) ⟨by decide, ⟨by decide, by decide⟩, by decide, by decide⟩ (set_action _ _ _ rfl)]
  rw [readLoop_field _ h.name.1 (by have := h.name.2; omega) ⟨by decide, ⟨by decide, by decide⟩, by decide, by decide⟩ (set_name _ _ _ rfl)]
  rw [readLoop_field _ h.target (by omega) ⟨by decide, ⟨by decide, by decide⟩, by decide, by decide⟩ (set_target _ _ _ rfl)]
  rw [read_priority _ _ _ _ rfl h.priority]
  refine via (read_protocols _ _ _ _ rfl h.protocols c2) (fun m1 => ?_)
  refine via (read_dsts _ _ _ _ rfl h.dsts c3) (fun m1 => ?_)
  refine via (read_srcs _ _ _ _ rfl h.srcs c4) (fun m1 => ?_)
  refine via (read_dports _ _ _ _ rfl h.dports c5) (fun m1 => ?_)
  refine via (read_sports _ _ _ _ rfl h.sports c6) (fun m1 => ?_)
  refine via (read_match _ _ _ _ rfl h.mtch c7) (fun m1 => ?_)
  rw [read_udpencap _ _ _ _ rfl h.udpencap, readLoop_eoc]
  exact ⟨m1, rfl⟩

end Nfqlb.Remote
