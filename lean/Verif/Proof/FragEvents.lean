import Verif.Proof.ConntrackProps
import Verif.Model.FragTable

/-! The connection tracker as the fragment table uses it: which functions of the table it calls, and how the stored values change. -/

set_option autoImplicit false

namespace Nfqlb.Ct

open Spec

/-- Only the functions to free something are called. -/
def Quiet (ev : List Ev) : Prop := ∀ e ∈ ev, e = .freeBucket ∨ ∃ v w, e = .free v w

theorem Quiet.nil : Quiet [] := by intro e h; cases h

theorem Quiet.append {a b : List Ev} (ha : Quiet a) (hb : Quiet b) : Quiet (a ++ b) := by
  intro e h
  rcases List.mem_append.1 h with h | h
  · exact ha e h
  · exact hb e h

theorem gcMain_quiet (now : Nat) (m : Slot) : Quiet (gcMain now m).2.1 := by
  unfold gcMain
  split
  · intro e h; simp at h; exact .inr ⟨_, _, h⟩
  · exact Quiet.nil

theorem gcChain_quiet (now : Nat) : ∀ c, Quiet (gcChain now c).2.1
  | [] => Quiet.nil
  | s :: r => by
    have ih := gcChain_quiet now r
    unfold gcChain
    dsimp only
    split
    · refine Quiet.append (Quiet.append ?_ ?_) ih
      · split
        · intro e h; simp at h; exact .inr ⟨_, _, h⟩
        · exact Quiet.nil
      · intro e h; simp at h; exact .inl h
    · exact ih

theorem prepare_quiet (b : Bucket) (now : Nat) : Quiet (prepare b now).2.1 := by
  rw [prepare_eq]
  exact Quiet.append (gcMain_quiet now _) (gcChain_quiet now _)

theorem removeChain_quiet (k : Key) : ∀ c, Quiet (removeChain k c).2
  | [] => Quiet.nil
  | s :: r => by
    unfold removeChain
    split
    · refine Quiet.append ?_ ?_
      · split
        · intro e h; simp at h; exact .inr ⟨_, _, h⟩
        · exact Quiet.nil
      · intro e h; simp at h; exact .inl h
    · exact removeChain_quiet k r

theorem gcAll_quiet (now : Nat) : ∀ l, Quiet (gcAll now l).2.1
  | [] => Quiet.nil
  | b :: r => by
    unfold gcAll
    rw [bucketGC_eq]
    exact Quiet.append (prepare_quiet b now) (gcAll_quiet now r)

theorem lookup_shape {ct ct' : Ct} {now : Nat} {k : Key} {v : Nat} {ev : List Ev} (h : lookup ct now k = .ok (ct', v, ev)) :
    ct'.ttl = ct.ttl ∧ ∃ ev0, Quiet ev0 ∧ ((v = 0 ∧ ev = ev0) ∨ (v ≠ 0 ∧ ev = ev0 ++ [.lock v])) := by
  simp only [lookup] at h
  cases hb : bucketOf ct k with
  | ok b =>
    rw [hb] at h
    simp only [Res.ok_bind, Res.pure_eq] at h
    cases ht : touch now k (prepare b now).1 with
    | none =>
      rw [ht] at h
      simp only [Res.ok.injEq, Prod.mk.injEq] at h
      obtain ⟨rfl, rfl, rfl⟩ := h
      exact ⟨rfl, _, prepare_quiet b now, .inl ⟨rfl, rfl⟩⟩
    | some x =>
      rw [ht] at h
      simp only [Res.ok.injEq, Prod.mk.injEq] at h
      obtain ⟨rfl, rfl, rfl⟩ := h
      obtain ⟨b', w⟩ := x
      obtain ⟨s, -, -, -, -, hh, hs, -⟩ := touch_some ht
      have : s.data ≠ 0 := (hit_iff.1 hh).1
      exact ⟨rfl, _, prepare_quiet b now, .inr ⟨hs ▸ this, rfl⟩⟩
  | die => rw [hb] at h; simp at h
  | ub => rw [hb] at h; simp at h
  | hang => rw [hb] at h; simp at h

theorem insert_shape {ct ct' : Ct} {now : Nat} {k : Key} {ttl data : Nat} {ok : Bool} {r : Int} {ev : List Ev} {b : Bucket} (hd : data ≠ 0)
    (hb : bucketOf ct k = .ok b) (h : insertTTL ct now k ttl data ok = .ok (ct', r, ev)) :
    ct'.ttl = ct.ttl ∧ (ev = (prepare b now).2.1 ∨ (ok = true ∧ ev = (prepare b now).2.1 ++ [.alloc true]) ∨
      (ok = false ∧ ev = (prepare b now).2.1 ++ [.alloc false])) := by
  unfold insertTTL at h
  rw [if_neg hd, hb] at h
  simp only [Res.ok_bind, Res.pure_eq] at h
  cases ht : touch now k (prepare b now).1 with
  | some x =>
    rw [ht] at h
    simp only [Res.ok.injEq, Prod.mk.injEq] at h
    obtain ⟨rfl, rfl, rfl⟩ := h
    exact ⟨rfl, .inl rfl⟩
  | none =>
    rw [ht] at h
    simp only at h
    split at h
    · simp only [Res.ok.injEq, Prod.mk.injEq] at h
      obtain ⟨rfl, rfl, rfl⟩ := h
      refine ⟨?_, .inl rfl⟩
      simp only [setBucket]
      split <;> rfl
    · split at h
      · simp only [Res.ok.injEq, Prod.mk.injEq] at h
        obtain ⟨rfl, rfl, rfl⟩ := h
        refine ⟨rfl, .inr (.inl ⟨by assumption, rfl⟩)⟩
      · simp only [Res.ok.injEq, Prod.mk.injEq] at h
        obtain ⟨rfl, rfl, rfl⟩ := h
        refine ⟨rfl, .inr (.inr ⟨by simp_all, rfl⟩)⟩

theorem remove_shape {ct ct' : Ct} {now : Nat} {k : Key} {ev : List Ev} (h : remove ct now k = .ok (ct', ev)) :
    ct'.ttl = ct.ttl ∧ Quiet ev := by
  unfold remove at h
  cases hb : bucketOf ct k with
  | ok b =>
    rw [hb] at h
    simp only [Res.ok_bind, Res.pure_eq] at h
    split at h
    · simp only [Res.ok.injEq, Prod.mk.injEq] at h
      obtain ⟨rfl, rfl⟩ := h
      refine ⟨rfl, Quiet.append (prepare_quiet b now) ?_⟩
      split
      · intro e h; simp at h; exact .inr ⟨_, _, h⟩
      · exact Quiet.nil
    · simp only [Res.ok.injEq, Prod.mk.injEq] at h
      obtain ⟨rfl, rfl⟩ := h
      exact ⟨rfl, Quiet.append (prepare_quiet b now) (removeChain_quiet k _)⟩
  | die => rw [hb] at h; simp at h
  | ub => rw [hb] at h; simp at h
  | hang => rw [hb] at h; simp at h

theorem stats_shape (ct : Ct) (now : Nat) : (ctStats ct now).1.ttl = ct.ttl ∧ Quiet (ctStats ct now).2 := by
  unfold ctStats
  exact ⟨rfl, gcAll_quiet now _⟩

/-! ### The values stored -/

/-- All slots that hold something. -/
def allSlots (ct : Ct) : List Slot := (ct.buckets.flatMap slots).filter (fun s => decide (s.data ≠ 0))

/-- All values stored. -/
def vals (ct : Ct) : List Nat := (allSlots ct).map Slot.data

/-- The values freed. -/
def fv (ev : List Ev) : List Nat := ev.filterMap (fun e => match e with | .free v _ => some v | _ => none)

theorem mem_allSlots {ct : Ct} {s : Slot} : s ∈ allSlots ct ↔ Stored ct s := by
  rw [stored_iff]
  unfold allSlots
  simp

theorem zero_notin_vals (ct : Ct) : 0 ∉ vals ct := by
  intro h
  obtain ⟨s, hs, h0⟩ := List.mem_map.1 h
  exact (stored_iff.1 (mem_allSlots.1 hs)).2 h0

theorem count_vals (ct : Ct) {v : Nat} (hv : v ≠ 0) : (vals ct).count v = sumT (cntB (fun w => decide (w = v))) ct.buckets := by
  unfold vals allSlots
  rw [List.count, List.countP_map, List.countP_filter]
  have : (fun s : Slot => ((fun x => x == v) ∘ Slot.data) s && decide (s.data ≠ 0)) = fun s => decide (s.data = v) := by
    funext s
    by_cases h : s.data = v
    · simp [h, hv]
    · simp [h]
  simp only [this]
  generalize ct.buckets = l
  induction l with
  | nil => rfl
  | cons b l ih =>
    simp only [List.flatMap_cons, List.countP_append, ih, sumT, List.map_cons, List.sum_cons, cntB]

theorem count_fv (ev : List Ev) (v : Nat) : (fv ev).count v = freesP (fun w => decide (w = v)) ev := by
  induction ev with
  | nil => rfl
  | cons e ev ih =>
    unfold fv freesP at *
    rw [List.countP_cons]
    cases e with
    | free w y =>
      simp only [List.filterMap_cons]
      rw [List.count_cons, ih]
      simp
    | freeBucket => simpa using ih
    | alloc ok => simpa using ih
    | lock w => simpa using ih

theorem fv_append (a b : List Ev) : fv (a ++ b) = fv a ++ fv b := by simp [fv]

theorem zero_notin_fv {ev : List Ev} (h : NZ ev) : 0 ∉ fv ev := by
  intro h0
  unfold fv at h0
  obtain ⟨e, he, h1⟩ := List.mem_filterMap.1 h0
  cases e with
  | free w y => simp at h1; subst h1; exact h 0 y he rfl
  | freeBucket => simp at h1
  | alloc ok => simp at h1
  | lock w => simp at h1

theorem perm_of_count {ct ct' : Ct} {ev : List Ev} {add : Option Nat} (hz : NZ ev) (ha : add ≠ some 0)
    (h : ∀ P : Nat → Bool, P 0 = false → sumT (cntB P) ct'.buckets + freesP P ev = sumT (cntB P) ct.buckets + (if add.any P then 1 else 0)) :
    (vals ct' ++ fv ev).Perm (add.toList ++ vals ct) := by
  rw [List.perm_iff_count]
  intro v
  by_cases hv : v = 0
  · subst hv
    rw [List.count_append, List.count_append, List.count_eq_zero_of_not_mem (zero_notin_vals _), List.count_eq_zero_of_not_mem (zero_notin_vals _),
      List.count_eq_zero_of_not_mem (zero_notin_fv hz), List.count_eq_zero_of_not_mem]
    cases add with
    | none => simp
    | some x => simp at ha ⊢; exact fun h => ha h.symm
  · have := h (fun w => decide (w = v)) (by simp; exact fun h => hv h.symm)
    rw [List.count_append, List.count_append, count_vals _ hv, count_vals _ hv, count_fv, this, Nat.add_comm]
    congr 1
    cases add with
    | none => simp
    | some x => simp [List.count_singleton]

theorem TEff.perm {ct ct' : Ct} {now : Nat} {k : Key} {ev : List Ev} {n : Nat} {after : Option Slot} {add : Option Nat}
    (e : TEff ct ct' now k ev n after add) (hz : NZ ev) (ha : add ≠ some 0) : (vals ct' ++ fv ev).Perm (add.toList ++ vals ct) :=
  perm_of_count hz ha e.count

/-- The number of extra buckets. -/
def chains (ct : Ct) : Nat := sumT (fun b => b.chain.length) ct.buckets

theorem slot_inj {ct : Ct} (hn : (vals ct).Nodup) {s s' : Slot} (hs : Stored ct s) (hs' : Stored ct s') (h : s.data = s'.data) : s = s' := by
  have h1 := mem_allSlots.2 hs
  have h2 := mem_allSlots.2 hs'
  unfold vals at hn
  clear hs hs'
  generalize allSlots ct = l at *
  induction l with
  | nil => cases h1
  | cons x l ih =>
    simp only [List.map_cons, List.nodup_cons] at hn
    rcases List.mem_cons.1 h1 with e1 | e1 <;> rcases List.mem_cons.1 h2 with e2 | e2
    · rw [e1, e2]
    · subst e1; exact absurd (List.mem_map.2 ⟨s', e2, h.symm⟩) hn.1
    · subst e2; exact absurd (List.mem_map.2 ⟨s, e1, h⟩) hn.1
    · exact ih hn.2 e1 e2

theorem mem_vals {ct : Ct} {v : Nat} : v ∈ vals ct ↔ ∃ s, Stored ct s ∧ s.data = v := by
  unfold vals
  rw [List.mem_map]
  simp only [mem_allSlots]

end Nfqlb.Ct
