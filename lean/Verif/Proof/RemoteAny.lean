import Verif.Proof.RemoteRead

/-! What the reader does with any input. -/

set_option autoImplicit false

namespace Nfqlb.Remote

open Nfqlb Nfqlb.Spec.Argv Nfqlb.Spec.Rem Nfqlb.Argv

theorem splits_item {delim s : List Char} {ts : List (List Char)} (h : Splits delim s ts) : ∀ t ∈ ts, t.length ≤ s.length := by
  induction h with
  | nil s _ => simp
  | last d t _ _ _ =>
    intro x hx
    have : x = t := by simpa using hx
    subst this
    simp
  | cons d t c s ts _ _ _ _ _ ih =>
    intro x hx
    simp only [List.mem_cons] at hx
    rcases hx with rfl | hx
    · simp; omega
    · have := ih x hx
      simp; omega

theorem trim_length (t : List Char) : (trim t).length ≤ t.length := by
  unfold trim
  exact (List.dropWhile_sublist _).length_le

/-- `mkargv` on what fits into a line. -/
theorem mkargv_any {delim s : List Char} (hd : delim ≠ []) (hl : s.length < 1024) :
    mkargv s delim = .ok none ∨ (s ≠ [] ∧ ∃ l, mkargv s delim = .ok (some l) ∧ l.length < 1024 ∧ ∀ t ∈ l, t.length < 1024) := by
  obtain ⟨ts, h⟩ := splits_exists delim s
  have e := mkargv_spec hd (by omega) h
  have h1 := splits_length h
  by_cases ht : ts = []
  · rw [if_pos ht] at e
    exact .inl e
  · rw [if_neg ht] at e
    refine .inr ⟨?_, _, e, by simp; omega, ?_⟩
    · intro h0
      subst h0
      have := List.length_pos_iff.2 ht
      simp at h1
      exact ht h1
    · intro t hx
      simp only [List.mem_map] at hx
      obtain ⟨u, hu, rfl⟩ := hx
      have := splits_item h u hu
      have := trim_length u
      omega

/-- The fields of a command and the memory agree. -/
structure Good (base p0 : Nat) (c : FlowCmd) (m : Mem) : Prop where
  live : m.live = base + blocks c
  peak : m.peak ≤ max p0 (base + 9)
  small : Small c

theorem dup_cases (f : Option (List Char)) (arg : List Char) (m : Mem) : (∃ x, f = some x ∧ dupField f arg m = (some x, m)) ∨ (f = none ∧ dupField f arg m = (some arg, m.alloc)) := by
  cases f with
  | none => exact .inr ⟨rfl, rfl⟩
  | some x => exact .inl ⟨x, rfl, rfl⟩

theorem list_cases (f : Option (List (List Char))) (arg delim : List Char) (m : Mem) (hd : delim ≠ []) (hl : arg.length < 1024) :
    (∃ x, f = some x ∧ listField f arg delim m = .ok (some x, m)) ∨ (f = none ∧ ∃ m', listField f arg delim m = .ok (none, m') ∧ m'.live = m.live ∧ m'.peak ≤ max m.peak (m.live + 1)) ∨
    (f = none ∧ ∃ l m', listField f arg delim m = .ok (some l, m') ∧ m'.live = m.live + 1 ∧ m'.peak ≤ max m.peak (m.live + 1) ∧ l.length < 1024 ∧ ∀ t ∈ l, t.length < 1024) := by
  cases f with
  | some x => exact .inl ⟨x, rfl, rfl⟩
  | none =>
    rcases mkargv_any hd hl with e | ⟨h0, l, e, h1, h2⟩
    · refine .inr (.inl ⟨rfl, _, by unfold listField; dsimp only; rw [e]; rfl, ?_, ?_⟩)
      · split <;> simp [Mem.alloc, Mem.free]
      · split
        · exact Nat.le_max_left _ _
        · simp [Mem.alloc, Mem.free]
    · refine .inr (.inr ⟨rfl, l, _, by unfold listField; dsimp only; rw [e]; rfl, ?_, ?_, h1, h2⟩)
      · simp [Mem.alloc, Mem.free]
      · simp [Mem.alloc, Mem.free]

theorem blocks_le (c : FlowCmd) : blocks c ≤ 9 := by
  unfold blocks
  exact List.count_le_length

theorem blocks_eq (c : FlowCmd) : blocks c = c.action.isSome.toNat + c.name.isSome.toNat + c.target.isSome.toNat + c.protocols.isSome.toNat + c.dports.isSome.toNat + c.sports.isSome.toNat + c.dsts.isSome.toNat +
    c.srcs.isSome.toNat + c.mtch.isSome.toNat := by
  unfold blocks
  cases c.action.isSome <;> cases c.name.isSome <;> cases c.target.isSome <;> cases c.protocols.isSome <;> cases c.dports.isSome <;> cases c.sports.isSome <;> cases c.dsts.isSome <;>
    cases c.srcs.isSome <;> cases c.mtch.isSome <;> rfl

/-- The frame for a step that takes a block for one field. -/
theorem Good.take {base p0 : Nat} {c c' : FlowCmd} {m m' : Mem} (g : Good base p0 c m) (h : blocks c' = blocks c + 1) (h1 : m'.live = m.live + 1) (h2 : m'.peak ≤ max m.peak (m.live + 1)) (hs : Small c') : Good base p0 c' m' := by
  refine ⟨by rw [h1, h, g.live]; omega, ?_, hs⟩
  have := blocks_le c'
  have := g.live
  have := g.peak
  omega

/-- The frame for a step that takes no block. -/
theorem Good.keep {base p0 : Nat} {c c' : FlowCmd} {m m' : Mem} (g : Good base p0 c m) (h : blocks c' = blocks c) (h0 : blocks c ≤ 8) (h1 : m'.live = m.live) (h2 : m'.peak ≤ max m.peak (m.live + 1)) (hs : Small c') : Good base p0 c' m' := by
  refine ⟨by rw [h1, h, g.live], ?_, hs⟩
  have := g.live
  have := g.peak
  omega

theorem small_text {c : FlowCmd} {arg : List Char} (hs : Small c) (ha : arg.length < 1019) {c' : FlowCmd} (ht : ∀ t ∈ texts c', t ∈ texts c ∨ t = arg) (hl : lists c' = lists c) : Small c' := by
  refine ⟨fun t h => ?_, fun l h => hs.2 l (hl ▸ h)⟩
  rcases ht t h with h | rfl
  · exact hs.1 t h
  · exact ha

theorem small_list {c : FlowCmd} {x : List (List Char)} (hs : Small c) (ha : x.length < 1024 ∧ ∀ t ∈ x, t.length < 1024) {c' : FlowCmd} (ht : texts c' = texts c) (hl : ∀ l ∈ lists c', l ∈ lists c ∨ l = x) : Small c' := by
  refine ⟨fun t h => hs.1 t (ht ▸ h), fun l h => ?_⟩
  rcases hl l h with h | rfl
  · exact hs.2 l h
  · exact ha

theorem setField_good {base p0 : Nat} {c : FlowCmd} {m : Mem} {name arg : List Char} (g : Good base p0 c m) (hn : 4 ≤ name.length → arg.length < 1019) :
    ∃ c' m', setField c m name arg = .ok (c', m') ∧ Good base p0 c' m' := by
  have hal : m.alloc.live = m.live + 1 ∧ m.alloc.peak ≤ max m.peak (m.live + 1) := ⟨rfl, Nat.le_refl _⟩
  unfold setField
  by_cases h : name = "action".toList
  · rw [if_pos h]
    have ha := hn (by rw [h]; decide)
    rcases dup_cases c.action arg m with ⟨x, hx, e⟩ | ⟨hx, e⟩ <;> rw [e] <;> refine ⟨_, _, rfl, ?_⟩
    · rw [show ({ c with action := some x } : FlowCmd) = c from by rw [← hx]]; exact g
    · refine g.take ?_ hal.1 hal.2 (small_text g.small ha ?_ rfl)
      · simp only [blocks_eq, hx]; simp; omega
      · intro t ht; simp only [texts, hx] at ht ⊢; simp at ht ⊢; grind
  rw [if_neg h]
  by_cases h : name = "name".toList
  · rw [if_pos h]
    have ha := hn (by rw [h]; decide)
    rcases dup_cases c.name arg m with ⟨x, hx, e⟩ | ⟨hx, e⟩ <;> rw [e] <;> refine ⟨_, _, rfl, ?_⟩
    · rw [show ({ c with name := some x } : FlowCmd) = c from by rw [← hx]]; exact g
    · refine g.take ?_ hal.1 hal.2 (small_text g.small ha ?_ rfl)
      · simp only [blocks_eq, hx]; simp; omega
      · intro t ht; simp only [texts, hx] at ht ⊢; simp at ht ⊢; grind
  rw [if_neg h]
  by_cases h : name = "target".toList
  · rw [if_pos h]
    have ha := hn (by rw [h]; decide)
    rcases dup_cases c.target arg m with ⟨x, hx, e⟩ | ⟨hx, e⟩ <;> rw [e] <;> refine ⟨_, _, rfl, ?_⟩
    · rw [show ({ c with target := some x } : FlowCmd) = c from by rw [← hx]]; exact g
    · refine g.take ?_ hal.1 hal.2 (small_text g.small ha ?_ rfl)
      · simp only [blocks_eq, hx]; simp; omega
      · intro t ht; simp only [texts, hx] at ht ⊢; simp at ht ⊢; grind
  rw [if_neg h]
  by_cases h : name = "priority".toList
  · rw [if_pos h]
    exact ⟨_, _, rfl, ⟨g.live, g.peak, g.small⟩⟩
  rw [if_neg h]
  by_cases h : name = "protocols".toList
  · rw [if_pos h]
    have ha := hn (by rw [h]; decide)
    rcases list_cases c.protocols arg ", ".toList m (by decide) (by omega) with ⟨x, hx, e⟩ | ⟨hx, m', e, h1, h2⟩ | ⟨hx, l, m', e, h1, h2, h3⟩ <;> rw [e] <;> refine ⟨_, _, rfl, ?_⟩
    · rw [show ({ c with protocols := some x } : FlowCmd) = c from by rw [← hx]]; exact g
    · rw [show ({ c with protocols := none } : FlowCmd) = c from by rw [← hx]]
      refine g.keep rfl ?_ h1 h2 g.small
      simp only [blocks_eq, hx]
      have := Bool.toNat_le c.action.isSome; have := Bool.toNat_le c.name.isSome; have := Bool.toNat_le c.target.isSome; have := Bool.toNat_le c.dports.isSome; have := Bool.toNat_le c.sports.isSome; have := Bool.toNat_le c.dsts.isSome; have := Bool.toNat_le c.srcs.isSome; have := Bool.toNat_le c.mtch.isSome
      simp; omega
    · refine g.take ?_ h1 h2 (small_list g.small h3 rfl ?_)
      · simp only [blocks_eq, hx]; simp; omega
      · intro t ht; simp only [lists, hx] at ht ⊢; simp at ht ⊢; grind
  rw [if_neg h]
  by_cases h : name = "dports".toList
  · rw [if_pos h]
    have ha := hn (by rw [h]; decide)
    rcases dup_cases c.dports arg m with ⟨x, hx, e⟩ | ⟨hx, e⟩ <;> rw [e] <;> refine ⟨_, _, rfl, ?_⟩
    · rw [show ({ c with dports := some x } : FlowCmd) = c from by rw [← hx]]; exact g
    · refine g.take ?_ hal.1 hal.2 (small_text g.small ha ?_ rfl)
      · simp only [blocks_eq, hx]; simp; omega
      · intro t ht; simp only [texts, hx] at ht ⊢; simp at ht ⊢; grind
  rw [if_neg h]
  by_cases h : name = "sports".toList
  · rw [if_pos h]
    have ha := hn (by rw [h]; decide)
    rcases dup_cases c.sports arg m with ⟨x, hx, e⟩ | ⟨hx, e⟩ <;> rw [e] <;> refine ⟨_, _, rfl, ?_⟩
    · rw [show ({ c with sports := some x } : FlowCmd) = c from by rw [← hx]]; exact g
    · refine g.take ?_ hal.1 hal.2 (small_text g.small ha ?_ rfl)
      · simp only [blocks_eq, hx]; simp; omega
      · intro t ht; simp only [texts, hx] at ht ⊢; simp at ht ⊢; grind
  rw [if_neg h]
  by_cases h : name = "dsts".toList
  · rw [if_pos h]
    have ha := hn (by rw [h]; decide)
    rcases list_cases c.dsts arg ", ".toList m (by decide) (by omega) with ⟨x, hx, e⟩ | ⟨hx, m', e, h1, h2⟩ | ⟨hx, l, m', e, h1, h2, h3⟩ <;> rw [e] <;> refine ⟨_, _, rfl, ?_⟩
    · rw [show ({ c with dsts := some x } : FlowCmd) = c from by rw [← hx]]; exact g
    · rw [show ({ c with dsts := none } : FlowCmd) = c from by rw [← hx]]
      refine g.keep rfl ?_ h1 h2 g.small
      simp only [blocks_eq, hx]
      have := Bool.toNat_le c.action.isSome; have := Bool.toNat_le c.name.isSome; have := Bool.toNat_le c.target.isSome; have := Bool.toNat_le c.dports.isSome; have := Bool.toNat_le c.sports.isSome; have := Bool.toNat_le c.protocols.isSome; have := Bool.toNat_le c.srcs.isSome; have := Bool.toNat_le c.mtch.isSome
      simp; omega
    · refine g.take ?_ h1 h2 (small_list g.small h3 rfl ?_)
      · simp only [blocks_eq, hx]; simp; omega
      · intro t ht; simp only [lists, hx] at ht ⊢; simp at ht ⊢; grind
  rw [if_neg h]
  by_cases h : name = "srcs".toList
  · rw [if_pos h]
    have ha := hn (by rw [h]; decide)
    rcases list_cases c.srcs arg ", ".toList m (by decide) (by omega) with ⟨x, hx, e⟩ | ⟨hx, m', e, h1, h2⟩ | ⟨hx, l, m', e, h1, h2, h3⟩ <;> rw [e] <;> refine ⟨_, _, rfl, ?_⟩
    · rw [show ({ c with srcs := some x } : FlowCmd) = c from by rw [← hx]]; exact g
    · rw [show ({ c with srcs := none } : FlowCmd) = c from by rw [← hx]]
      refine g.keep rfl ?_ h1 h2 g.small
      simp only [blocks_eq, hx]
      have := Bool.toNat_le c.action.isSome; have := Bool.toNat_le c.name.isSome; have := Bool.toNat_le c.target.isSome; have := Bool.toNat_le c.dports.isSome; have := Bool.toNat_le c.sports.isSome; have := Bool.toNat_le c.protocols.isSome; have := Bool.toNat_le c.dsts.isSome; have := Bool.toNat_le c.mtch.isSome
      simp; omega
    · refine g.take ?_ h1 h2 (small_list g.small h3 rfl ?_)
      · simp only [blocks_eq, hx]; simp; omega
      · intro t ht; simp only [lists, hx] at ht ⊢; simp at ht ⊢; grind
  rw [if_neg h]
  by_cases h : name = "match".toList
  · rw [if_pos h]
    have ha := hn (by rw [h]; decide)
    rcases list_cases c.mtch arg ",".toList m (by decide) (by omega) with ⟨x, hx, e⟩ | ⟨hx, m', e, h1, h2⟩ | ⟨hx, l, m', e, h1, h2, h3⟩ <;> rw [e] <;> refine ⟨_, _, rfl, ?_⟩
    · rw [show ({ c with mtch := some x } : FlowCmd) = c from by rw [← hx]]; exact g
    · rw [show ({ c with mtch := none } : FlowCmd) = c from by rw [← hx]]
      refine g.keep rfl ?_ h1 h2 g.small
      simp only [blocks_eq, hx]
      have := Bool.toNat_le c.action.isSome; have := Bool.toNat_le c.name.isSome; have := Bool.toNat_le c.target.isSome; have := Bool.toNat_le c.dports.isSome; have := Bool.toNat_le c.sports.isSome; have := Bool.toNat_le c.protocols.isSome; have := Bool.toNat_le c.dsts.isSome; have := Bool.toNat_le c.srcs.isSome
      simp; omega
    · refine g.take ?_ h1 h2 (small_list g.small h3 rfl ?_)
      · simp only [blocks_eq, hx]; simp
      · intro t ht; simp only [lists, hx] at ht ⊢; simp at ht ⊢; grind
  rw [if_neg h]
  by_cases h : name = "udpencap".toList
  · rw [if_pos h]
    exact ⟨_, _, rfl, ⟨g.live, g.peak, g.small⟩⟩
  rw [if_neg h]
  exact ⟨_, _, rfl, g⟩

theorem fgetsAux_length : ∀ (n : Nat) (s : List Char), (fgetsAux n s).1.length ≤ n
  | 0, _ => Nat.le_refl _
  | _ + 1, [] => Nat.zero_le _
  | n + 1, c :: s => by
    unfold fgetsAux
    have := fgetsAux_length n s
    split
    · simp
    · simp only [List.length_cons]; omega

theorem fgetsAux_append : ∀ (n : Nat) (s : List Char), (fgetsAux n s).1 ++ (fgetsAux n s).2 = s
  | 0, _ => rfl
  | _ + 1, [] => rfl
  | n + 1, c :: s => by
    unfold fgetsAux
    have := fgetsAux_append n s
    split
    · rfl
    · simp only [List.cons_append, this]

theorem trimLine_prefix (raw : List Char) : trimLine raw <+: raw := by
  unfold trimLine
  exact (List.takeWhile_prefix _).trans (List.takeWhile_prefix _)

theorem fgets_some {s raw rest : List Char} (h : fgets 1024 s = some (raw, rest)) : raw ++ rest = s ∧ raw.length < 1024 := by
  unfold fgets at h
  split at h
  · cases h
  · have e := Option.some.inj h
    have h1 := fgetsAux_append (1024 - 1) s
    have h2 := fgetsAux_length (1024 - 1) s
    rw [e] at h1 h2
    exact ⟨h1, Nat.lt_succ_of_le h2⟩

theorem freeFlowCmd_live {base p0 : Nat} {c : FlowCmd} {m : Mem} (g : Good base p0 c m) : (freeFlowCmd c m).1 = FlowCmd.zero ∧ (freeFlowCmd c m).2.live = base ∧ (freeFlowCmd c m).2.peak = m.peak := by
  have h := g.live
  have hf : ∀ (α : Type) (p : Option α) (m : Mem), (m.free p).live = m.live - p.isSome.toNat ∧ (m.free p).peak = m.peak := by
    intro α p m
    cases p <;> simp [Mem.free]
  rw [blocks_eq] at h
  refine ⟨rfl, ?_, ?_⟩
  · unfold freeFlowCmd
    simp only [(hf _ _ _).1]
    omega
  · unfold freeFlowCmd
    simp only [(hf _ _ _).2]

theorem dropWhile_nil (p : Char → Bool) (l : List Char) : l.dropWhile p = [] ↔ ∀ x ∈ l, p x = true := by
  induction l with
  | nil => simp
  | cons c l ih =>
    rw [List.dropWhile_cons]
    split
    · rename_i h; rw [ih]; simp [h]
    · rename_i h; simp [h]

/-- What a line can do. -/
theorem doLine_good {base p0 : Nat} {c : FlowCmd} {m : Mem} {buf : List Char} (g : Good base p0 c m) (hb : buf.length < 1024) :
    (doLine c m buf = .ok .eoc ∧ "eoc:".toList <+: buf) ∨ (doLine c m buf = .ok .bad ∧ ':' ∉ buf) ∨ (∃ c' m', doLine c m buf = .ok (.next c' m') ∧ Good base p0 c' m' ∧ ':' ∈ buf) := by
  unfold doLine
  by_cases h : buf.take 4 = "eoc:".toList
  · rw [if_pos h]
    exact .inl ⟨rfl, by rw [← h]; exact List.take_prefix _ _⟩
  · rw [if_neg h]
    cases hs : CText.strchr ':' buf with
    | none =>
      refine .inr (.inl ⟨rfl, ?_⟩)
      intro hm
      unfold CText.strchr at hs
      obtain ⟨a, b, hab⟩ := List.append_of_mem hm
      split at hs
      · rename_i e
        rw [dropWhile_nil] at e
        have := e ':' hm
        simp at this
      · cases hs
    | some r =>
      have hr : r.length ≤ buf.length ∧ r = buf.dropWhile (fun x => x != ':') ∧ r ≠ [] := by
        unfold CText.strchr at hs
        split at hs
        · cases hs
        · rename_i e
          cases hs
          exact ⟨(List.dropWhile_sublist _).length_le, rfl, e⟩
      obtain ⟨c', m', e, g'⟩ := setField_good (name := buf.takeWhile (fun x => x != ':')) (arg := r.drop 1) g (fun h4 => by
        have hl := congrArg List.length (List.takeWhile_append_dropWhile (p := fun x : Char => x != ':') (l := buf))
        rw [List.length_append, ← hr.2.1] at hl
        have := List.length_pos_iff.2 hr.2.2
        rw [List.length_drop]
        omega)
      refine .inr (.inr ⟨c', m', ?_, g', ?_⟩)
      · dsimp only
        rw [e]; rfl
      · refine Decidable.byContradiction fun hm => hr.2.2 ?_
        rw [hr.2.1, dropWhile_nil]
        intro x hx
        simp only [bne_iff_ne]
        rintro rfl
        exact hm hx

/-- How reading ends. -/
structure Ends (base p0 : Nat) (s : List Char) (r : Read) : Prop where
  rc : r.rc = 0 ∨ r.rc = -1
  rest : r.rest <:+ s
  peak : r.mem.peak ≤ max p0 (base + 9)
  refused : r.rc = -1 → r.cmd = FlowCmd.zero ∧ r.mem.live = base
  accepted : r.rc = 0 → r.mem.live = base + blocks r.cmd ∧ Small r.cmd ∧ "eoc:".toList <:+: s ∧ (freeFlowCmd r.cmd r.mem).2.live = base

theorem readLoop_ends {base p0 : Nat} : ∀ (n : Nat) (s : List Char) (c : FlowCmd) (m : Mem), s.length ≤ n → Good base p0 c m → ∃ r, readLoop s c m = .ok r ∧ Ends base p0 s r
  | n, s, c, m, hn, g => by
    rw [readLoop_eq]
    obtain ⟨f1, f2, f3⟩ := freeFlowCmd_live g
    cases hf : fgets 1024 s with
    | none => exact ⟨_, rfl, .inr rfl, List.suffix_refl _, by rw [f3]; exact g.peak, fun _ => ⟨f1, f2⟩, fun h => absurd h (show ¬ (-1 : Int) = 0 by decide)⟩
    | some x =>
      obtain ⟨raw, rest⟩ := x
      obtain ⟨h1, h2⟩ := fgets_some hf
      have hlt := fgets_lt (by decide) hf
      have hp := trimLine_prefix raw
      have hsuf : rest <:+ s := ⟨raw, h1⟩
      rcases doLine_good g (Nat.lt_of_le_of_lt hp.length_le h2) with ⟨e, he⟩ | ⟨e, he⟩ | ⟨c', m', e, g', _⟩ <;> dsimp only <;> rw [e] <;> dsimp only
      · refine ⟨_, rfl, .inl rfl, hsuf, g.peak, fun h => absurd h (show ¬ (0 : Int) = -1 by decide), fun _ => ⟨g.live, g.small, ?_, f2⟩⟩
        exact (he.trans (hp.trans ⟨rest, h1⟩)).isInfix
      · exact ⟨_, rfl, .inr rfl, hsuf, by rw [f3]; exact g.peak, fun _ => ⟨f1, f2⟩, fun h => absurd h (show ¬ (-1 : Int) = 0 by decide)⟩
      · cases n with
        | zero => omega
        | succ n =>
          obtain ⟨r, e2, k⟩ := readLoop_ends n rest c' m' (by omega) g'
          refine ⟨r, e2, k.rc, k.rest.trans hsuf, k.peak, k.refused, fun h => ?_⟩
          obtain ⟨k1, k2, k3, k4⟩ := k.accepted h
          exact ⟨k1, k2, k3.trans hsuf.isInfix, k4⟩

theorem good_zero (m : Mem) : Good m.live m.peak FlowCmd.zero m := by
  refine ⟨rfl, Nat.le_max_left _ _, ?_, ?_⟩ <;> simp [texts, lists, FlowCmd.zero]

theorem fgetsAux_within : ∀ (n : Nat) (pre t : List Char), pre ≠ [] → pre.getLast? = some '\n' → ∃ b, (fgetsAux n (pre ++ t)).2 = b ++ t ∧ (b = [] ∨ b.getLast? = some '\n') ∧ (fgetsAux n (pre ++ t)).1 ++ b = pre
  | 0, pre, t, _, hl => ⟨pre, rfl, .inr hl, rfl⟩
  | n + 1, [], t, h, _ => absurd rfl h
  | n + 1, c :: pre, t, _, hl => by
    rw [List.cons_append, fgetsAux]
    by_cases hc : c = '\n'
    · rw [if_pos hc]
      refine ⟨pre, rfl, ?_, rfl⟩
      cases pre with
      | nil => exact .inl rfl
      | cons d pre => exact .inr (by simpa [List.getLast?_cons_cons] using hl)
    · rw [if_neg hc]
      have hp : pre ≠ [] := by
        rintro rfl
        exact hc (Option.some.inj hl)
      have hl' : pre.getLast? = some '\n' := by
        cases pre with
        | nil => exact absurd rfl hp
        | cons d pre => simpa [List.getLast?_cons_cons] using hl
      obtain ⟨b, h1, h2, h3⟩ := fgetsAux_within n pre t hp hl'
      exact ⟨b, h1, h2, by rw [List.cons_append, h3]⟩

theorem fgetsAux_noColon : ∀ (n : Nat) (line t : List Char), ':' ∉ line → ':' ∉ (fgetsAux n (line ++ '\n' :: t)).1
  | 0, line, t, _ => by simp [fgetsAux]
  | n + 1, [], t, _ => by simp [fgetsAux]
  | n + 1, c :: line, t, h => by
    rw [List.cons_append, fgetsAux]
    split
    · simpa using fun e : ':' = c => h (e ▸ List.mem_cons_self)
    · have := fgetsAux_noColon n line t (fun e => h (by simp [e]))
      simp only [List.mem_cons, not_or]
      exact ⟨fun e => h (e ▸ List.mem_cons_self), this⟩

/-- A line without colon before the end mark. -/
theorem readLoop_bad {base p0 : Nat} : ∀ (n : Nat) (pre line t : List Char) (c : FlowCmd) (m : Mem), pre.length ≤ n → Good base p0 c m → (pre = [] ∨ pre.getLast? = some '\n') → ¬ "eoc:".toList <:+: pre → ':' ∉ line →
    ∃ r, readLoop (pre ++ (line ++ '\n' :: t)) c m = .ok r ∧ r.rc = -1
  | n, pre, line, t, c, m, hn, g, hp, he, hl => by
    rw [readLoop_eq]
    have hne : pre ++ (line ++ '\n' :: t) ≠ [] := by simp
    cases hf : fgets 1024 (pre ++ (line ++ '\n' :: t)) with
    | none => unfold fgets at hf; rw [if_neg hne] at hf; cases hf
    | some x =>
      obtain ⟨raw, rest⟩ := x
      obtain ⟨h1, h2⟩ := fgets_some hf
      have hx : fgetsAux 1023 (pre ++ (line ++ '\n' :: t)) = (raw, rest) := by
        unfold fgets at hf; rw [if_neg hne] at hf; exact Option.some.inj hf
      have hpf := trimLine_prefix raw
      have hlen := Nat.lt_of_le_of_lt hpf.length_le h2
      by_cases hp0 : pre = []
      · subst hp0
        rw [List.nil_append] at hx
        have hno : ':' ∉ raw := by
          have := fgetsAux_noColon 1023 line t hl
          rw [hx] at this
          exact this
        have hno2 : ':' ∉ trimLine raw := fun e => hno (hpf.subset e)
        rcases doLine_good g hlen with ⟨e, he⟩ | ⟨e, _⟩ | ⟨c', m', e, g', hm⟩
        · exact absurd (he.subset (by decide)) hno2
        · dsimp only; rw [e]; exact ⟨_, rfl, rfl⟩
        · exact absurd hm hno2
      · have hl2 := hp.resolve_left hp0
        obtain ⟨b, b1, b2, b3⟩ := fgetsAux_within 1023 pre (line ++ '\n' :: t) hp0 hl2
        rw [hx] at b1 b3
        dsimp only at b1 b3 ⊢
        subst b1
        rcases doLine_good g hlen with ⟨e, hee⟩ | ⟨e, _⟩ | ⟨c', m', e, g', hm⟩
        · exact absurd ((hee.trans (hpf.trans ⟨b, b3⟩)).isInfix) he
        · rw [e]; exact ⟨_, rfl, rfl⟩
        · rw [e]
          dsimp only
          have hr : raw ≠ [] := by
            rintro rfl
            exact absurd (hpf.subset hm) (by simp)
          have : b.length < pre.length := by
            rw [← b3]
            have := List.length_pos_iff.2 hr
            simp; omega
          cases n with
          | zero => omega
          | succ n => exact readLoop_bad n b line t c' m' (by omega) g' b2 (fun e => he (e.trans (List.IsSuffix.isInfix ⟨raw, b3⟩))) hl

theorem fgetsAux_short : ∀ (n : Nat) (l : List Char), '\n' ∉ l → l.length ≤ n → fgetsAux n l = (l, [])
  | 0, [], _, _ => rfl
  | _ + 1, [], _, _ => rfl
  | n + 1, c :: l, h, hl => by
    rw [fgetsAux, if_neg (fun e : c = '\n' => h (e ▸ List.mem_cons_self)), fgetsAux_short n l (fun e => h (List.mem_cons_of_mem _ e)) (by simp at hl; omega)]

theorem trimLine_prefix_line (l : List Char) : trimLine (l ++ ['\n']) <+: l := by
  have h1 := trimLine_prefix (l ++ ['\n'])
  have h2 : '\n' ∉ trimLine (l ++ ['\n']) := by
    unfold trimLine
    intro e
    have : ∀ (x : List Char), '\n' ∉ x.takeWhile (fun c => c != '\n') := by
      intro x
      induction x with
      | nil => simp
      | cons c x ih =>
        rw [List.takeWhile_cons]
        split
        · rename_i hc
          simp only [bne_iff_ne] at hc
          simp only [List.mem_cons, not_or]
          exact ⟨fun e => hc e.symm, ih⟩
        · simp
    exact this _ e
  obtain ⟨t, ht⟩ := h1
  rcases List.eq_nil_or_concat t with rfl | ⟨t', x, rfl⟩
  · rw [List.append_nil] at ht
    exact absurd (by rw [ht]; simp) h2
  · rw [List.concat_eq_append, ← List.append_assoc] at ht
    have := List.append_inj_left' ht rfl
    exact ⟨t', this⟩

/-- No line begins with the end mark. -/
theorem readLoop_noMark {base p0 : Nat} : ∀ (lines : List (List Char)) (last : List Char) (c : FlowCmd) (m : Mem), Good base p0 c m → (∀ l ∈ lines, '\n' ∉ l ∧ l.length ≤ 1022 ∧ ¬ "eoc:".toList <+: l) →
    ('\n' ∉ last ∧ last.length ≤ 1022 ∧ ¬ "eoc:".toList <+: last) → ∃ r, readLoop ((lines.map (· ++ ['\n'])).flatten ++ last) c m = .ok r ∧ r.rc = -1
  | [], last, c, m, g, _, hl => by
    rw [readLoop_eq]
    simp only [List.map_nil, List.flatten_nil, List.nil_append]
    cases hf : fgets 1024 last with
    | none => exact ⟨_, rfl, rfl⟩
    | some x =>
      obtain ⟨raw, rest⟩ := x
      unfold fgets at hf
      split at hf
      · cases hf
      rw [fgetsAux_short _ last hl.1 (Nat.le_trans hl.2.1 (by decide))] at hf
      cases hf
      have hp := trimLine_prefix last
      dsimp only
      rcases doLine_good g (Nat.lt_of_le_of_lt hp.length_le (by omega)) with ⟨e, he⟩ | ⟨e, _⟩ | ⟨c', m', e, g', _⟩
      · exact absurd (he.trans hp) hl.2.2
      · rw [e]; exact ⟨_, rfl, rfl⟩
      · rw [e]
        dsimp only
        rw [readLoop_eq]
        exact ⟨_, rfl, rfl⟩
  | l :: lines, last, c, m, g, h, hl => by
    have h1 := h l (by simp)
    have e0 : ((l :: lines).map (· ++ ['\n'])).flatten ++ last = l ++ '\n' :: ((lines.map (· ++ ['\n'])).flatten ++ last) := by simp
    rw [e0, readLoop_eq]
    have e : fgets 1024 (l ++ '\n' :: ((lines.map (· ++ ['\n'])).flatten ++ last)) = some (l ++ ['\n'], (lines.map (· ++ ['\n'])).flatten ++ last) := by
      unfold fgets
      rw [if_neg (by simp), fgetsAux_line 1023 l _ h1.1 (by omega)]
    rw [e]
    dsimp only
    have hp := trimLine_prefix_line l
    rcases doLine_good g (Nat.lt_of_le_of_lt hp.length_le (by omega)) with ⟨e, he⟩ | ⟨e, _⟩ | ⟨c', m', e, g', _⟩
    · exact absurd (he.trans hp) h1.2.2
    · rw [e]; exact ⟨_, rfl, rfl⟩
    · rw [e]
      exact readLoop_noMark lines last c' m' g' (fun x hx => h x (by simp [hx])) hl

end Nfqlb.Remote
