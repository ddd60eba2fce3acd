import Verif.Spec.FragRace

/-! The invariant of the reference counters. -/

set_option autoImplicit false

namespace Nfqlb.Race

open Nfqlb.Spec.Race

/-- The references that a thread owns. -/
def held (j : Nat) : Th → Nat
  | .found _ _ id _ => if id = j then 1 else 0
  | .allocated _ id => if id = j then 1 else 0
  | .lost _ id => if id = j then 1 else 0
  | .failed id => if id = j then 1 else 0
  | .using _ id => if id = j then 1 else 0
  | _ => 0

def heldAll (j : Nat) (l : List Th) : Nat := (l.map (held j)).sum

def own (j : Nat) (e : Entry) : Nat := if e.id = j then 1 else 0

def entAll (j : Nat) (l : List Entry) : Nat := (l.map (own j)).sum

/-- The entry that must stay in the tracker as long as the thread is here. -/
def window : Th → Option Entry
  | .inserted k loc id => some ⟨loc, k, id⟩
  | .found k loc id _ => some ⟨loc, k, id⟩
  | _ => none

/-- All references to an object. -/
def need (s : St) (j : Nat) : Nat := entAll j s.entries + heldAll j s.thr

structure Inv (s : St) : Prop where
  live : ∀ j, j < s.next → s.freed j = 0 → j ∉ s.dying → s.ref j = (need s j : Int) ∧ 1 ≤ need s j
  dead : ∀ j, s.freed j ≠ 0 ∨ j ∈ s.dying ∨ s.next ≤ j → need s j = 0
  once : ∀ j, s.freed j + s.dying.count j ≤ 1
  fresh : ∀ j, s.next ≤ j → s.freed j = 0 ∧ j ∉ s.dying
  win : ∀ t ∈ s.thr, ∀ e, window t = some e → e ∈ s.entries
  uniq : (s.entries.map Entry.loc).Nodup

theorem sum_set (f : Th → Nat) : ∀ (l : List Th) (i : Nat) (t t' : Th), l[i]? = some t → ((l.set i t').map f).sum + f t = (l.map f).sum + f t'
  | [], i, t, t', h => by simp at h
  | x :: l, 0, t, t', h => by
    simp only [List.getElem?_cons_zero, Option.some.injEq] at h
    subst h
    simp only [List.set_cons_zero, List.map_cons, List.sum_cons]
    omega
  | x :: l, i + 1, t, t', h => by
    simp only [List.getElem?_cons_succ] at h
    have := sum_set f l i t t' h
    simp only [List.set_cons_succ, List.map_cons, List.sum_cons]
    omega

theorem held_set (j : Nat) {l : List Th} {i : Nat} {t : Th} (t' : Th) (h : l[i]? = some t) : heldAll j (l.set i t') + held j t = heldAll j l + held j t' :=
  sum_set (held j) l i t t' h

theorem held_le (j : Nat) {l : List Th} {i : Nat} {t : Th} (h : l[i]? = some t) : held j t ≤ heldAll j l := by
  have := held_set j .idle h
  have h0 : held j .idle = 0 := rfl
  omega

theorem ent_erase (j : Nat) {l : List Entry} {e : Entry} (h : e ∈ l) : entAll j (l.erase e) + own j e = entAll j l := by
  induction l with
  | nil => cases h
  | cons x l ih =>
    by_cases hx : x = e
    · subst hx
      simp only [List.erase_cons_head, entAll, List.map_cons, List.sum_cons]
      omega
    · rw [List.erase_cons_tail (by simpa using hx)]
      have := ih ((List.mem_cons.1 h).resolve_left (fun h => hx h.symm))
      simp only [entAll, List.map_cons, List.sum_cons] at this ⊢
      omega

theorem ent_le (j : Nat) {l : List Entry} {e : Entry} (h : e ∈ l) : own j e ≤ entAll j l := by
  have := ent_erase j h
  omega

theorem mem_set {l : List Th} {i : Nat} {t t' : Th} (h : t ∈ l.set i t') : t ∈ l ∨ t = t' := List.mem_or_eq_of_mem_set h

/-- An object with a reference is in use. -/
theorem Inv.alive {s : St} (h : Inv s) {j : Nat} (hn : 1 ≤ need s j) : j < s.next ∧ s.freed j = 0 ∧ j ∉ s.dying ∧ s.ref j = (need s j : Int) := by
  have hd := h.dead j
  have h1 : j < s.next := Classical.byContradiction (fun hc => by have := hd (.inr (.inr (Nat.not_lt.1 hc))); omega)
  have h2 : s.freed j = 0 := Classical.byContradiction (fun hc => by have := hd (.inl hc); omega)
  have h3 : j ∉ s.dying := fun hc => by have := hd (.inr (.inl hc)); omega
  exact ⟨h1, h2, h3, (h.live j h1 h2 h3).1⟩

/-- Moves that only pass references on. -/
theorem inv_same {s s' : St} (h : Inv s) (h1 : s'.ref = s.ref) (h2 : s'.freed = s.freed) (h3 : s'.next = s.next) (h4 : s'.dying = s.dying)
    (h5 : ∀ j, need s' j = need s j) (h6 : ∀ t ∈ s'.thr, ∀ e, window t = some e → e ∈ s'.entries) (h7 : (s'.entries.map Entry.loc).Nodup) : Inv s' := by
  refine ⟨?_, ?_, ?_, ?_, h6, h7⟩
  · intro j a b c
    rw [h1, h5]
    exact h.live j (h3 ▸ a) (h2 ▸ b) (h4 ▸ c)
  · intro j hj
    rw [h2, h3, h4] at hj
    rw [h5]
    exact h.dead j hj
  · rw [h2, h4]; exact h.once
  · rw [h2, h3, h4]; exact h.fresh

theorem inv_inc {s s' : St} (h : Inv s) {id : Nat} (ha : 1 ≤ need s id) (h1 : ∀ j, s'.ref j = if j = id then s.ref id + 1 else s.ref j) (h2 : s'.freed = s.freed)
    (h3 : s'.next = s.next) (h4 : s'.dying = s.dying) (h5 : ∀ j, need s' j = need s j + if id = j then 1 else 0)
    (h6 : ∀ t ∈ s'.thr, ∀ e, window t = some e → e ∈ s'.entries) (h7 : (s'.entries.map Entry.loc).Nodup) : Inv s' := by
  obtain ⟨a1, a2, a3, a4⟩ := h.alive ha
  refine ⟨?_, ?_, ?_, ?_, h6, h7⟩
  · intro j a b c
    have := h.live j (h3 ▸ a) (h2 ▸ b) (h4 ▸ c)
    rw [h1, h5]
    by_cases hj : j = id
    · subst hj; rw [if_pos rfl, if_pos rfl]; omega
    · rw [if_neg hj, if_neg (fun h => hj h.symm)]; exact this
  · intro j hj
    rw [h2, h3, h4] at hj
    have := h.dead j hj
    rw [h5, if_neg (by rintro rfl; omega)]
    exact this
  · rw [h2, h4]; exact h.once
  · rw [h2, h3, h4]; exact h.fresh

/-- Giving up a reference. -/
theorem inv_dec {s s0 : St} (h : Inv s) {id : Nat} (ha : 1 ≤ need s id) (h1 : s0.ref = s.ref) (h2 : s0.freed = s.freed) (h3 : s0.next = s.next)
    (h4 : s0.dying = s.dying) :
    ∃ s1, dec s0 id = .ok s1 ∧ s1.entries = s0.entries ∧ s1.thr = s0.thr ∧
      ∀ s', s'.ref = s1.ref → s'.freed = s1.freed → s'.next = s1.next → s'.dying = s1.dying → (∀ j, need s' j + (if id = j then 1 else 0) = need s j) →
        (∀ t ∈ s'.thr, ∀ e, window t = some e → e ∈ s'.entries) → (s'.entries.map Entry.loc).Nodup → Inv s' := by
  obtain ⟨a1, a2, a3, a4⟩ := h.alive ha
  have hf : s0.freed id = 0 := by rw [h2]; exact a2
  have hr : s0.ref id = (need s id : Int) := by rw [h1]; exact a4
  refine ⟨{ s0 with ref := fun j => if j = id then s0.ref id - 1 else s0.ref j, dying := if need s id = 1 then id :: s0.dying else s0.dying }, ?_, rfl, rfl, ?_⟩
  · unfold dec
    rw [if_neg (by simp [hf])]
    simp only [if_true, hr]
    rw [if_neg (by omega)]
    by_cases hn : need s id = 1
    · rw [if_pos (by omega), if_pos hn]
    · rw [if_neg (by omega), if_neg hn]
  · intro s' g1 g2 g3 g4 g5 g6 g7
    simp only at g1 g2 g3 g4
    rw [h2] at g2
    rw [h3] at g3
    rw [h4] at g4
    rw [h1] at g1
    have hdy : ∀ j, j ∈ s'.dying ↔ (j ∈ s.dying ∨ (need s id = 1 ∧ j = id)) := by
      intro j
      rw [g4]
      by_cases hn : need s id = 1
      · rw [if_pos hn]; simp [hn]; exact or_comm
      · rw [if_neg hn]; simp [hn]
    refine ⟨?_, ?_, ?_, ?_, g6, g7⟩
    · intro j b1 b2 b3
      rw [hdy] at b3
      have := h.live j (g3 ▸ b1) (g2 ▸ b2) (fun h => b3 (.inl h))
      have e5 := g5 j
      rw [g1]
      simp only
      by_cases hj : j = id
      · subst hj
        rw [if_pos rfl] at e5 ⊢
        have : need s j ≠ 1 := fun h => b3 (.inr ⟨h, rfl⟩)
        omega
      · rw [if_neg (fun h => hj h.symm)] at e5
        rw [if_neg hj]
        omega
    · intro j hj
      have e5 := g5 j
      rw [g2, g3, hdy] at hj
      rcases hj with hj | (hj | ⟨hj, rfl⟩) | hj
      · have := h.dead j (.inl hj); omega
      · have := h.dead j (.inr (.inl hj)); omega
      · rw [if_pos rfl] at e5; omega
      · have := h.dead j (.inr (.inr hj)); omega
    · intro j
      rw [g2, g4]
      have := h.once j
      by_cases hn : need s id = 1
      · rw [if_pos hn, List.count_cons]
        by_cases hj : id = j
        · subst hj
          have := List.count_eq_zero_of_not_mem a3
          simp [this, a2]
        · simp [hj]; exact this
      · rw [if_neg hn]; exact this
    · intro j hj
      rw [g3] at hj
      have := h.fresh j hj
      refine ⟨by rw [g2]; exact this.1, ?_⟩
      rw [hdy]
      rintro (h | ⟨_, rfl⟩)
      · exact this.2 h
      · omega

theorem goto_need {s : St} {i : Nat} {t : Th} (h : s.thr[i]? = some t) (t' : Th) (j : Nat) : need (goto s i t') j + held j t = need s j + held j t' := by
  have := held_set j t' h
  unfold need goto
  simp only
  omega

theorem goto_win {s : St} (h : ∀ t ∈ s.thr, ∀ e, window t = some e → e ∈ s.entries) {i : Nat} {t' : Th} (ht : ∀ e, window t' = some e → e ∈ s.entries) :
    ∀ t ∈ (goto s i t').thr, ∀ e, window t = some e → e ∈ (goto s i t').entries := by
  intro t hm e he
  rcases mem_set hm with hm | rfl
  · exact h t hm e he
  · exact ht e he

theorem find_mem {s : St} {k : Nat} {e : Entry} (h : find s k = some e) : e ∈ s.entries ∧ e.key = k := by
  unfold find at h
  exact ⟨List.mem_of_find?_eq_some h, by simpa using List.find?_some h⟩

theorem inc_ok {s : St} {id : Nat} (h : s.freed id = 0) : inc s id = .ok { s with ref := fun j => if j = id then s.ref id + 1 else s.ref j } := by
  unfold inc
  rw [if_neg (by simp [h])]

theorem need_ent {s : St} {e : Entry} (h : e ∈ s.entries) : 1 ≤ need s e.id := by
  have := ent_le e.id h
  unfold need
  simp only [own, if_true] at this
  omega

theorem need_held {s : St} {i : Nat} {t : Th} (h : s.thr[i]? = some t) {j : Nat} (hj : 1 ≤ held j t) : 1 ≤ need s j := by
  have := held_le j h
  unfold need
  omega

theorem loc_unique {l : List Entry} (h : (l.map Entry.loc).Nodup) {e : Entry} (hm : e ∈ l) : l.find? (fun x => x.loc == e.loc) = some e := by
  induction l with
  | nil => cases hm
  | cons x l ih =>
    simp only [List.map_cons, List.nodup_cons] at h
    rcases List.mem_cons.1 hm with rfl | hm
    · simp
    · rw [List.find?_cons_of_neg]
      · exact ih h.2 hm
      · intro hx
        have hx : x.loc = e.loc := by simpa using hx
        exact h.1 (hx ▸ List.mem_map_of_mem hm)

theorem lookup_inv {s : St} (h : Inv s) {i k : Nat} {second : Bool} {t miss : Th} (hi : s.thr[i]? = some t) (ht : ∀ j, held j t = 0) (hm : ∀ j, held j miss = 0)
    (hw : window miss = none) : ∃ s', ctLookup s i k second miss = .ok s' ∧ Inv s' := by
  unfold ctLookup
  cases hf : find s k with
  | none =>
    refine ⟨_, rfl, inv_same h rfl rfl rfl rfl ?_ (goto_win h.win (by rw [hw]; simp)) h.uniq⟩
    intro j
    have := goto_need hi miss j
    rw [ht, hm] at this
    exact this
  | some e =>
    obtain ⟨hem, hek⟩ := find_mem hf
    have hn := need_ent hem
    obtain ⟨a1, a2, a3, a4⟩ := h.alive hn
    simp only [inc_ok a2, Res.ok_bind, Res.pure_eq]
    refine ⟨_, rfl, inv_inc h hn (fun j => rfl) rfl rfl rfl ?_ (goto_win (s := { s with ref := _ }) h.win ?_) h.uniq⟩
    · intro j
      have := goto_need hi (.found k e.loc e.id second) j
      rw [ht] at this
      exact this
    · intro e' he'
      simp only [window, Option.some.injEq] at he'
      subst he'
      subst hek
      exact hem

theorem erase_win {s : St} (h : Inv s) {e : Entry} (hm : e ∈ s.entries) (hc : ∀ t ∈ s.thr, inWindow e t = false) :
    (∀ t ∈ s.thr, ∀ e', window t = some e' → e' ∈ s.entries.erase e) ∧ ((s.entries.erase e).map Entry.loc).Nodup := by
  constructor
  · intro t ht e' he'
    have h1 := h.win t ht e' he'
    have h2 := hc t ht
    have hne : e' ≠ e := by
      rintro rfl
      cases t <;> simp [window] at he' <;> subst he' <;> simp [inWindow] at h2
    exact (List.mem_erase_of_ne hne).2 h1
  · exact List.Nodup.sublist (List.Sublist.map _ List.erase_sublist) h.uniq

theorem take_inv {s : St} (h : Inv s) {e : Entry} (hm : e ∈ s.entries) (hc : ∀ t ∈ s.thr, inWindow e t = false) :
    ∃ s', dec { s with entries := s.entries.erase e } e.id = .ok s' ∧ Inv s' := by
  obtain ⟨s1, h1, h2, h3, h4⟩ := inv_dec (s0 := { s with entries := s.entries.erase e }) h (need_ent hm) rfl rfl rfl rfl
  obtain ⟨w1, w2⟩ := erase_win h hm hc
  refine ⟨s1, h1, h4 s1 rfl rfl rfl rfl ?_ (by rw [h2, h3]; exact w1) (by rw [h2]; exact w2)⟩
  intro j
  have := ent_erase j hm
  unfold need
  rw [h2, h3]
  simp only
  unfold own at this
  omega

theorem drop_inv {s : St} (h : Inv s) {i id : Nat} {t t' : Th} (hi : s.thr[i]? = some t) (ht : ∀ j, held j t = if id = j then 1 else 0) (ht' : ∀ j, held j t' = 0)
    (hw : window t' = none) : ∃ s1, dec s id = .ok s1 ∧ Inv (goto s1 i t') := by
  obtain ⟨s1, h1, h2, h3, h4⟩ := inv_dec (s0 := s) h (need_held hi (j := id) (by rw [ht]; simp)) rfl rfl rfl rfl
  refine ⟨s1, h1, h4 (goto s1 i t') rfl rfl rfl rfl ?_ (goto_win (by rw [h2, h3]; exact h.win) (by rw [hw]; simp)) (by show (s1.entries.map Entry.loc).Nodup; rw [h2]; exact h.uniq)⟩
  intro j
  have := goto_need (s := s1) (by rw [h3]; exact hi) t' j
  rw [ht, ht'] at this
  have hn : need s1 j = need s j := by unfold need; rw [h2, h3]
  omega

/-- Every move keeps the invariant, if no entry is taken out while a thread is in a window for it. -/
theorem move_inv {s : St} (h : Inv s) (m : Mv) (hc : ∀ e, takenOut s m = some e → ∀ t ∈ s.thr, inWindow e t = false) : ∃ s', move s m = .ok s' ∧ Inv s' := by
  cases m with
  | lookup i k =>
    unfold move
    dsimp only
    cases hi : s.thr[i]? with
    | none => exact ⟨s, rfl, h⟩
    | some t =>
      cases t with
      | idle => exact lookup_inv h hi (fun _ => rfl) (fun _ => rfl) rfl
      | again k' => exact lookup_inv h hi (fun _ => rfl) (fun _ => rfl) rfl
      | _ => exact ⟨s, rfl, h⟩
  | ret i =>
    unfold move
    dsimp only
    cases hi : s.thr[i]? with
    | none => exact ⟨s, rfl, h⟩
    | some t =>
      cases t with
      | found k loc id second =>
        have hm := h.win _ (List.mem_of_getElem? hi) _ rfl
        have := loc_unique h.uniq hm
        simp only at this
        simp only [this]
        refine ⟨_, rfl, inv_same h rfl rfl rfl rfl ?_ (goto_win h.win (by simp [window])) h.uniq⟩
        intro j
        have := goto_need hi (.using k id) j
        simp only [held] at this
        omega
      | _ => exact ⟨s, rfl, h⟩
  | alloc i ok =>
    unfold move
    dsimp only
    cases hi : s.thr[i]? with
    | none => exact ⟨s, rfl, h⟩
    | some t =>
      cases t with
      | missed k =>
        simp only
        by_cases hok : ok = true
        · rw [if_pos hok]
          refine ⟨_, rfl, ?_⟩
          have hn : ∀ j, need (goto { s with next := s.next + 1, ref := fun j => if j = s.next then 1 else s.ref j } i (.allocated k s.next)) j =
              need s j + if s.next = j then 1 else 0 := by
            intro j
            have := goto_need (s := { s with next := s.next + 1, ref := fun j => if j = s.next then 1 else s.ref j }) hi (.allocated k s.next) j
            simp only [held] at this
            exact this
          refine ⟨?_, ?_, h.once, ?_, goto_win (s := { s with next := s.next + 1, ref := _ }) h.win (by simp [window]), h.uniq⟩
          · intro j a b c
            rw [hn]
            by_cases hj : j = s.next
            · subst hj
              have := h.dead s.next (.inr (.inr (Nat.le_refl _)))
              simp only [goto, if_true, this]
              omega
            · have hlt : j < s.next := by simp only [goto] at a; omega
              have := h.live j hlt b c
              simp only [goto, if_neg hj, if_neg (fun h => hj (Eq.symm h))]
              exact this
          · intro j hj
            rw [hn]
            simp only [goto] at hj
            have hf := h.fresh s.next (Nat.le_refl _)
            have hne : ¬ s.next = j := by
              rintro rfl
              rcases hj with hj | hj | hj
              · exact hj hf.1
              · exact hf.2 hj
              · omega
            rw [if_neg hne]
            exact h.dead j (by
              rcases hj with hj | hj | hj
              · exact .inl hj
              · exact .inr (.inl hj)
              · exact .inr (.inr (by omega)))
          · intro j hj
            simp only [goto] at hj
            exact h.fresh j (by omega)
        · rw [if_neg hok]
          refine ⟨_, rfl, inv_same h rfl rfl rfl rfl ?_ (goto_win h.win (by simp [window])) h.uniq⟩
          intro j
          have := goto_need hi .idle j
          simp only [held] at this
          exact this
      | _ => exact ⟨s, rfl, h⟩
  | insert i loc ok =>
    unfold move
    dsimp only
    cases hi : s.thr[i]? with
    | none => exact ⟨s, rfl, h⟩
    | some t =>
      cases t with
      | allocated k id =>
        simp only
        cases hf : find s k with
        | some e =>
          refine ⟨_, rfl, inv_same h rfl rfl rfl rfl ?_ (goto_win h.win (by simp [window])) h.uniq⟩
          intro j
          have := goto_need hi (.lost k id) j
          simp only [held] at this
          omega
        | none =>
          simp only
          by_cases hok : ok = true ∧ ∀ e ∈ s.entries, e.loc ≠ loc
          · rw [if_pos hok]
            refine ⟨_, rfl, inv_same h rfl rfl rfl rfl ?_ (goto_win (s := { s with entries := _ }) ?_ ?_) ?_⟩
            · intro j
              have h1 := held_set j (.inserted k loc id) hi
              simp only [held] at h1
              unfold need goto
              simp only [entAll, List.map_cons, List.sum_cons, own]
              omega
            · intro t ht e he
              exact List.mem_cons_of_mem _ (h.win t ht e he)
            · intro e he
              simp only [window, Option.some.injEq] at he
              rw [← he]
              exact List.mem_cons_self
            · simp only [goto, List.map_cons, List.nodup_cons]
              refine ⟨?_, h.uniq⟩
              intro hm
              obtain ⟨e, he, hl⟩ := List.mem_map.1 hm
              exact hok.2 e he hl
          · rw [if_neg hok]
            refine ⟨_, rfl, inv_same h rfl rfl rfl rfl ?_ (goto_win h.win (by simp [window])) h.uniq⟩
            intro j
            have := goto_need hi (.failed id) j
            simp only [held] at this
            omega
      | _ => exact ⟨s, rfl, h⟩
  | refinc i =>
    unfold move
    dsimp only
    cases hi : s.thr[i]? with
    | none => exact ⟨s, rfl, h⟩
    | some t =>
      cases t with
      | inserted k loc id =>
        have hm := h.win _ (List.mem_of_getElem? hi) _ rfl
        have hn := need_ent hm
        obtain ⟨a1, a2, a3, a4⟩ := h.alive hn
        simp only [inc_ok a2, Res.ok_bind, Res.pure_eq]
        refine ⟨_, rfl, inv_inc h hn (fun j => rfl) rfl rfl rfl ?_ (goto_win (s := { s with ref := _ }) h.win (by simp [window])) h.uniq⟩
        intro j
        have := goto_need hi (.using k id) j
        exact this
      | _ => exact ⟨s, rfl, h⟩
  | unlock i =>
    unfold move
    dsimp only
    cases hi : s.thr[i]? with
    | none => exact ⟨s, rfl, h⟩
    | some t =>
      cases t with
      | «using» k id =>
        obtain ⟨s1, h1, h2⟩ := drop_inv (t' := .idle) (id := id) h hi (fun _ => rfl) (fun _ => rfl) rfl
        simp only [h1, Res.ok_bind, Res.pure_eq]
        exact ⟨_, rfl, h2⟩
      | lost k id =>
        obtain ⟨s1, h1, h2⟩ := drop_inv (t' := .again k) (id := id) h hi (fun _ => rfl) (fun _ => rfl) rfl
        simp only [h1, Res.ok_bind, Res.pure_eq]
        exact ⟨_, rfl, h2⟩
      | failed id =>
        obtain ⟨s1, h1, h2⟩ := drop_inv (t' := .idle) (id := id) h hi (fun _ => rfl) (fun _ => rfl) rfl
        simp only [h1, Res.ok_bind, Res.pure_eq]
        exact ⟨_, rfl, h2⟩
      | _ => exact ⟨s, rfl, h⟩
  | use i =>
    unfold move
    dsimp only
    cases hi : s.thr[i]? with
    | none => exact ⟨s, rfl, h⟩
    | some t =>
      cases t with
      | «using» k id =>
        have := h.alive (need_held hi (j := id) (by simp [held]))
        simp only
        rw [if_neg (by simp [this.2.1])]
        exact ⟨s, rfl, h⟩
      | _ => exact ⟨s, rfl, h⟩
  | remove i =>
    unfold takenOut at hc
    dsimp only at hc
    unfold move
    dsimp only
    cases hi : s.thr[i]? with
    | none => exact ⟨s, rfl, h⟩
    | some t =>
      cases t with
      | «using» k id =>
        simp only [hi] at hc
        simp only
        cases hf : find s k with
        | none => exact ⟨s, rfl, h⟩
        | some e => exact take_inv h (find_mem hf).1 (hc e hf)
      | _ => exact ⟨s, rfl, h⟩
  | expire e =>
    unfold takenOut at hc
    dsimp only at hc
    unfold move
    dsimp only
    by_cases hm : e ∈ s.entries
    · simp only [if_pos hm]
      exact take_inv h hm (hc e (by simp [hm]))
    · simp only [if_neg hm]
      exact ⟨s, rfl, h⟩
  | release =>
    unfold move
    dsimp only
    cases hd : s.dying with
    | nil => exact ⟨s, rfl, h⟩
    | cons id r =>
      refine ⟨_, rfl, ?_⟩
      have ho := h.once id
      rw [hd, List.count_cons_self] at ho
      have hcnt : r.count id = 0 := by omega
      refine ⟨?_, ?_, ?_, ?_, h.win, h.uniq⟩
      · intro j a b c
        simp only at a b c
        by_cases hj : j = id
        · rw [if_pos hj] at b; omega
        · rw [if_neg hj] at b
          exact h.live j a b (by rw [hd]; simp [hj, c])
      · intro j hj
        simp only at hj
        by_cases hji : j = id
        · subst hji
          exact h.dead j (.inr (.inl (by rw [hd]; simp)))
        · rw [if_neg hji] at hj
          exact h.dead j (by
            rcases hj with hj | hj | hj
            · exact .inl hj
            · exact .inr (.inl (by rw [hd]; simp [hj]))
            · exact .inr (.inr hj))
      · intro j
        have := h.once j
        rw [hd, List.count_cons] at this
        simp only
        by_cases hj : j = id
        · subst hj; rw [if_pos rfl]; omega
        · rw [if_neg hj]
          rw [if_neg (by simpa using fun h => hj (Eq.symm h))] at this
          exact this
      · intro j hj
        have := h.fresh j hj
        rw [hd] at this
        have hne : j ≠ id := fun h => this.2 (by simp [h])
        simp only [if_neg hne]
        exact ⟨this.1, fun hm => this.2 (by simp [hm])⟩

theorem start_inv (n : Nat) : Inv (start n) := by
  have h0 : ∀ j, need (start n) j = 0 := by
    intro j
    have : ∀ n, heldAll j (List.replicate n .idle) = 0 := by
      intro n
      induction n with
      | zero => rfl
      | succ n ih =>
        unfold heldAll at ih ⊢
        simp only [List.replicate_succ, List.map_cons, List.sum_cons, held, ih]
    simp [need, start, entAll, this]
  refine ⟨?_, fun j _ => h0 j, ?_, ?_, ?_, ?_⟩
  · intro j hj
    simp [start] at hj
  · intro j; simp [start]
  · intro j _; simp [start]
  · intro t ht e he
    have := List.eq_of_mem_replicate ht
    subst this
    simp [window] at he
  · simp [start]

theorem run_inv : ∀ (ms : List Mv) {s : St}, Inv s → Calm s ms → ∃ s', runMoves s ms = .ok s' ∧ Inv s'
  | [], s, h, _ => ⟨s, rfl, h⟩
  | m :: ms, s, h, hc => by
    obtain ⟨s1, e1, i1⟩ := move_inv h m hc.1
    obtain ⟨s2, e2, i2⟩ := run_inv ms i1 (hc.2 s1 e1)
    exact ⟨s2, by simp only [runMoves, e1, Res.ok_bind, e2], i2⟩

end Nfqlb.Race
