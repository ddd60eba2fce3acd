import Verif.Proof.FragRuns
import Verif.Spec.FragIdeal

/-! The fragment table does what the ideal table does, as long as there is room. -/

set_option autoImplicit false

namespace Nfqlb.Frag

open Nfqlb.Ct (Ct Ev Slot vals fv Quiet NZ liveT TInv chains TEff)
open Nfqlb.Spec (Stored)
open Nfqlb.Spec.Frag

variable {N MB MF T : Nat}

/-- What is known about a datagram is what is remembered. -/
def SimE (e : Entry) (d : Dgram) : Prop :=
  e.last = d.last ∧ ((d.value = none ∧ e.st = .storing ∧ e.stored = d.waiting) ∨
    (∃ v, d.value = some v ∧ e.st = .hashValid ∧ e.value = v ∧ e.stored = [] ∧ d.waiting = []))

def Sim : Option Entry → Option Dgram → Prop
  | none, none => True
  | some e, some d => SimE e d
  | _, _ => False

theorem SimE.stored {e : Entry} {d : Dgram} (h : SimE e d) : e.stored = d.waiting := by
  obtain ⟨-, ⟨-, -, h⟩ | ⟨v, -, -, -, h1, h2⟩⟩ := h
  · exact h
  · rw [h1, h2]

theorem Sim.stored {e : Option Entry} {d : Option Dgram} (h : Sim e d) : (e.map Entry.stored).getD [] = (d.map Dgram.waiting).getD [] := by
  cases e <;> cases d
  · rfl
  · exact h.elim
  · exact h.elim
  · simp only [Option.map_some, Option.getD_some]; exact SimE.stored h

/-- Every entry is remembered. -/
def Cov (ft : Ft) (h : List Dgram) : Prop :=
  ∀ s, Stored ft.ct s → ∃ d ∈ h, d.key = s.key ∧ d.last = s.refered ∧ (ft.objs s.data).stored.length ≤ d.waiting.length

structure Rel (T : Nat) (ft : Ft) (h : List Dgram) (t : Nat) : Prop where
  keys : (h.map Dgram.key).Nodup
  sim : ∀ k, Sim (view ft t k) (recent T h t k)
  cov : Cov ft h

/-! ### Counting -/

theorem sum_le {α : Type} (key : α → Key) (f : α → Nat) (g : Dgram → Nat) : ∀ (L : List α) (h : List Dgram), (L.map key).Nodup →
    (∀ a ∈ L, ∃ d ∈ h, d.key = key a ∧ f a ≤ g d) → (L.map f).sum ≤ (h.map g).sum := by
  intro L
  induction L with
  | nil => intro h _ _; simp
  | cons a L ih =>
    intro h hn hc
    rw [List.map_cons, List.nodup_cons] at hn
    obtain ⟨d, hd, hk, hf⟩ := hc a (by simp)
    obtain ⟨l, r, rfl⟩ := List.append_of_mem hd
    have := ih (l ++ r) hn.2 (by
      intro b hb
      obtain ⟨d', hd', hk', hf'⟩ := hc b (List.mem_cons_of_mem _ hb)
      refine ⟨d', ?_, hk', hf'⟩
      simp only [List.mem_append, List.mem_cons] at hd' ⊢
      rcases hd' with h | rfl | h
      · exact .inl h
      · exact absurd (List.mem_map.2 ⟨b, hb, by rw [← hk', hk]⟩) hn.1
      · exact .inr h)
    simp only [List.map_cons, List.sum_cons, List.map_append, List.sum_append] at this ⊢
    omega

theorem stored_key_inj {ct : Ct} (hI : Ct.Inv ct) {s s' : Slot} (hs : Stored ct s) (hs' : Stored ct s') (h : s.key = s'.key) : s = s' := by
  have h1 := Ct.live_of_stored hI hs (now := s.refered) (fresh_now rfl)
  obtain ⟨⟨b, hb, hm⟩, hd⟩ := Ct.stored_iff.1 hs
  obtain ⟨⟨b', hb', hm'⟩, hd'⟩ := Ct.stored_iff.1 hs'
  obtain ⟨i, hi⟩ := List.getElem?_of_mem hb
  obtain ⟨i', hi'⟩ := List.getElem?_of_mem hb'
  have e1 := (hI.bkt i b hi).2 s hm hd
  have e2 := (hI.bkt i' b' hi').2 s' hm' hd'
  rw [h, e2] at e1
  subst e1
  rw [hi] at hi'
  injection hi' with hi'
  subst hi'
  have v1 := Ct.view_of_mem (hI.bkt _ b hi).1 hm hd
  have v2 := Ct.view_of_mem (hI.bkt _ b hi).1 hm' hd'
  rw [h, v2] at v1
  injection v1 with v1
  exact v1.symm

theorem nodup_keys {l : List Slot} (hn : (l.map Slot.data).Nodup) (hi : ∀ s ∈ l, ∀ s' ∈ l, s.key = s'.key → s = s') : (l.map Slot.key).Nodup := by
  induction l with
  | nil => simp
  | cons a l ih =>
    rw [List.map_cons, List.nodup_cons] at hn ⊢
    refine ⟨?_, ih hn.2 (fun s hs s' hs' => hi s (List.mem_cons_of_mem _ hs) s' (List.mem_cons_of_mem _ hs'))⟩
    intro hm
    obtain ⟨s, hs, hk⟩ := List.mem_map.1 hm
    have := hi s (List.mem_cons_of_mem _ hs) a (by simp) hk
    subst this
    exact hn.1 (List.mem_map.2 ⟨s, hs, rfl⟩)

theorem FInv.skeys {ft : Ft} {t x : Nat} (i : FInv N MB MF T ft t x) : ((Ct.allSlots ft.ct).map Slot.key).Nodup :=
  nodup_keys i.vnodup (fun _ hs _ hs' h => stored_key_inj i.ctI (Ct.mem_allSlots.1 hs) (Ct.mem_allSlots.1 hs') h)

theorem sum_ones {α : Type} (l : List α) : (l.map (fun _ => 1)).sum = l.length := by
  induction l with
  | nil => rfl
  | cons a l ih => simp only [List.map_cons, List.sum_cons, List.length_cons, ih]; omega

theorem cov_length {ft : Ft} {t x : Nat} {h : List Dgram} (i : FInv N MB MF T ft t x) (c : Cov ft h) : (vals ft.ct).length ≤ h.length := by
  have := sum_le Slot.key (fun _ => 1) (fun _ => 1) (Ct.allSlots ft.ct) h i.skeys (by
    intro s hs
    obtain ⟨d, hd, hk, -⟩ := c s (Ct.mem_allSlots.1 hs)
    exact ⟨d, hd, hk, Nat.le_refl _⟩)
  rw [sum_ones, sum_ones] at this
  unfold vals
  rw [List.length_map]
  exact this

theorem cov_stored {ft : Ft} {t x : Nat} {h : List Dgram} (i : FInv N MB MF T ft t x) (c : Cov ft h) :
    (storedAll ft).length ≤ (h.map (fun d => d.waiting.length)).sum := by
  have := sum_le Slot.key (fun s => (ft.objs s.data).stored.length) (fun d => d.waiting.length) (Ct.allSlots ft.ct) h i.skeys (by
    intro s hs
    obtain ⟨d, hd, hk, -, hl⟩ := c s (Ct.mem_allSlots.1 hs)
    exact ⟨d, hd, hk, hl⟩)
  rw [storedAll_length]
  unfold sizeOf vals
  rw [List.map_map]
  exact this

/-! ### The ideal table -/

theorem recent_some {h : List Dgram} {now : Nat} {k : Key} {d : Dgram} (hr : recent T h now k = some d) : d ∈ h ∧ d.key = k ∧ now ≤ d.last + T := by
  have h1 := List.find?_some hr
  simp only [decide_eq_true_eq] at h1
  exact ⟨List.mem_of_find?_eq_some hr, h1.1, h1.2⟩

theorem recent_none {h : List Dgram} {now : Nat} {k : Key} (hr : recent T h now k = none) {d : Dgram} (hd : d ∈ h) (hk : d.key = k) : ¬ now ≤ d.last + T := by
  have := List.find?_eq_none.1 hr d hd
  simpa [hk] using this

theorem key_inj {h : List Dgram} (hn : (h.map Dgram.key).Nodup) {d d' : Dgram} (hd : d ∈ h) (hd' : d' ∈ h) (hk : d.key = d'.key) : d = d' := by
  induction h with
  | nil => cases hd
  | cons a l ih =>
    rw [List.map_cons, List.nodup_cons] at hn
    rcases List.mem_cons.1 hd with rfl | h1 <;> rcases List.mem_cons.1 hd' with rfl | h2
    · rfl
    · exact absurd (List.mem_map.2 ⟨d', h2, hk.symm⟩) hn.1
    · exact absurd (List.mem_map.2 ⟨d, h1, hk⟩) hn.1
    · exact ih hn.2 h1 h2

theorem recent_of_mem {h : List Dgram} (hn : (h.map Dgram.key).Nodup) {now : Nat} {d : Dgram} (hd : d ∈ h) (hl : now ≤ d.last + T) :
    recent T h now d.key = some d := by
  cases hr : recent T h now d.key with
  | none => exact absurd hl (recent_none hr hd rfl)
  | some d' =>
    obtain ⟨h1, h2, -⟩ := recent_some hr
    rw [key_inj hn h1 hd h2]

theorem recent_advance {h : List Dgram} (hn : (h.map Dgram.key).Nodup) {t t' : Nat} (hle : t ≤ t') (k : Key) :
    recent T h t' k = (recent T h t k).filter (fun d => decide (t' ≤ d.last + T)) := by
  cases hr : recent T h t k with
  | none =>
    cases hr' : recent T h t' k with
    | none => rfl
    | some d =>
      obtain ⟨h1, h2, h3⟩ := recent_some hr'
      exact absurd (show t ≤ d.last + T by omega) (recent_none hr h1 h2)
  | some d =>
    obtain ⟨h1, h2, h3⟩ := recent_some hr
    rw [Option.filter_some]
    by_cases hl : t' ≤ d.last + T
    · simp only [hl, decide_true, if_true]
      rw [← h2]
      exact recent_of_mem hn h1 hl
    · simp only [hl, decide_false]
      cases hr' : recent T h t' k with
      | none => rfl
      | some d' =>
        obtain ⟨g1, g2, g3⟩ := recent_some hr'
        have := key_inj hn g1 h1 (g2.trans h2.symm)
        subst this
        exact absurd g3 hl

theorem Rel.advance {ft : Ft} {h : List Dgram} {t t' : Nat} (i : FInv N MB MF T ft t 0) (hle : t ≤ t') (h64 : t' < 2 ^ 64) (r : Rel T ft h t) : Rel T ft h t' := by
  refine ⟨r.keys, ?_, r.cov⟩
  intro k
  rw [view_advance i hle h64 k, recent_advance r.keys hle k]
  have hs := r.sim k
  cases hv : view ft t k <;> cases hr : recent T h t k <;> rw [hv, hr] at hs
  · trivial
  · exact hs.elim
  · exact hs.elim
  · rename_i e d
    have hl : e.last = d.last := hs.1
    simp only [Option.filter_some, hl]
    split
    · exact hs
    · trivial

theorem nodup_filter (h : List Dgram) (p : Dgram → Bool) (hn : (h.map Dgram.key).Nodup) : ((h.filter p).map Dgram.key).Nodup :=
  List.Nodup.sublist (List.Sublist.map _ List.filter_sublist) hn

theorem remember_keys {h : List Dgram} (d : Dgram) (hn : (h.map Dgram.key).Nodup) : ((remember d h).map Dgram.key).Nodup := by
  unfold remember
  rw [List.map_cons, List.nodup_cons]
  refine ⟨?_, nodup_filter h _ hn⟩
  intro hm
  obtain ⟨x, hx, hk⟩ := List.mem_map.1 hm
  simp only [List.mem_filter, decide_eq_true_eq] at hx
  exact hx.2 hk

theorem recent_other {h : List Dgram} (hn : (h.map Dgram.key).Nodup) {d : Dgram} {now : Nat} {k : Key} (hk : k ≠ d.key) :
    recent T (remember d h) now k = recent T h now k := by
  have hn' := remember_keys d hn
  cases hr : recent T h now k with
  | none =>
    cases hr' : recent T (remember d h) now k with
    | none => rfl
    | some d' =>
      obtain ⟨h1, h2, h3⟩ := recent_some hr'
      unfold remember at h1
      rcases List.mem_cons.1 h1 with rfl | h1
      · exact absurd h2.symm hk
      · exact absurd h3 (recent_none hr (List.mem_filter.1 h1).1 h2)
  | some d' =>
    obtain ⟨h1, h2, h3⟩ := recent_some hr
    rw [← h2]
    refine recent_of_mem hn' ?_ h3
    unfold remember
    refine List.mem_cons_of_mem _ (List.mem_filter.2 ⟨h1, ?_⟩)
    simpa [h2] using hk

theorem recent_self {h : List Dgram} (hn : (h.map Dgram.key).Nodup) {d : Dgram} {now : Nat} (hl : now ≤ d.last + T) :
    recent T (remember d h) now d.key = some d :=
  recent_of_mem (remember_keys d hn) (by simp [remember]) hl

/-! ### Steps -/

/-- What is held for other datagrams. -/
theorem held_cov {ft ft' : Ft} {now : Nat} {k : Key} {h : List Dgram} (c : Cov ft h) (hH : Held ft ft' now k) (s : Slot) (hs : Stored ft'.ct s) (hk : s.key ≠ k) :
    ∃ d ∈ h.filter (fun x => decide (x.key ≠ k)), d.key = s.key ∧ d.last = s.refered ∧ (ft'.objs s.data).stored.length ≤ d.waiting.length := by
  obtain ⟨h1, h2⟩ := hH.1 s hs hk
  obtain ⟨d, hd, e1, e2, e3⟩ := c s h1
  refine ⟨d, List.mem_filter.2 ⟨hd, by simpa [e1] using hk⟩, e1, e2, ?_⟩
  have : (ft'.objs s.data).stored = (ft.objs s.data).stored := by
    have := congrArg Entry.stored h2
    exact this
  rw [this]
  exact e3

theorem rel_remember {ft ft' : Ft} {op : Op} {out : Out} {k : Key} {h : List Dgram} (st : Step N MB MF T ft ft' op out) (r : Rel T ft h (timeOf op))
    (hk : keyOf op = some k) {d : Dgram} (hd : d.key = k) (hlast : d.last = timeOf op) {e : Entry} (hv : view ft' (timeOf op) k = some e) (he : SimE e d) :
    Rel T ft' (remember d h) (timeOf op) := by
  subst hd
  refine ⟨remember_keys d r.keys, ?_, ?_⟩
  · intro k'
    by_cases hk' : k' = d.key
    · subst hk'
      rw [hv, recent_self r.keys (by omega)]
      exact he
    · rw [recent_other r.keys hk', st.other k' (by rw [hk]; simpa using fun h => hk' h.symm)]
      exact r.sim k'
  · intro s hs
    have hH := st.more.held _ hk
    by_cases hk' : s.key = d.key
    · refine ⟨d, by simp [remember], hk'.symm, ?_, ?_⟩
      · have := hH.2 s hs hk'
        rw [hv] at this
        injection this with this
        subst this
        exact he.1.symm
      · have := hH.2 s hs hk'
        rw [hv] at this
        injection this with this
        subst this
        exact Nat.le_of_eq (congrArg List.length he.stored)
    · obtain ⟨x, hx, e1, e2, e3⟩ := held_cov r.cov hH s hs hk'
      exact ⟨x, List.mem_cons_of_mem _ hx, e1, e2, e3⟩

/-- Nothing is refused for lack of entries. -/
theorem no_room {ft ft' : Ft} {op : Op} {out : Out} {k : Key} {h : List Dgram} (st : Step N MB MF T ft ft' op out) (r : Rel T ft h (timeOf op))
    (hk : keyOf op = some k) (hm : makes op = true) {d : Dgram} (hd : d.key = k) (hlen : (remember d h).length ≤ MB) (hN : MB ≤ N)
    (h1 : view ft (timeOf op) k = none) (h2 : view ft' (timeOf op) k = none) : False := by
  have hH := st.more.held _ hk
  have hc : Cov ft' (h.filter (fun x => decide (x.key ≠ k))) := by
    intro s hs
    by_cases hk' : s.key = k
    · have := hH.2 s hs hk'
      rw [h2] at this
      cases this
    · exact held_cov r.cov hH s hs hk'
  have h3 := cov_length st.inv hc
  have h4 := st.more.room k hk hm h1 h2
  simp only [remember, hd, List.length_cons] at hlen
  omega

/-- Nothing is refused for lack of memory for fragments. -/
theorem no_full {ft ft' : Ft} {op : Op} {out : Out} {k : Key} {h : List Dgram} (st : Step N MB MF T ft ft' op out) (r : Rel T ft h (timeOf op))
    (hk : keyOf op = some k) {d : Dgram} (hd : d.key = k) {id : Nat}
    (hw : d.waiting = id :: ((recent T h (timeOf op) k).map Dgram.waiting).getD []) (hsum : ((remember d h).map (fun d => d.waiting.length)).sum ≤ MF)
    (h1 : ∀ e, view ft (timeOf op) k = some e → e.st ≠ .poisoned) {e' : Entry} (h2 : view ft' (timeOf op) k = some e') (h3 : e'.st = .poisoned)
    (h4 : e'.stored = []) : False := by
  have hH := st.more.held _ hk
  have hc : Cov ft' (⟨k, e'.last, none, []⟩ :: h.filter (fun x => decide (x.key ≠ k))) := by
    intro s hs
    by_cases hk' : s.key = k
    · have := hH.2 s hs hk'
      rw [h2] at this
      injection this with this
      refine ⟨_, List.mem_cons_self, hk'.symm, by rw [this]; rfl, ?_⟩
      have : (ft'.objs s.data).stored = [] := by rw [← h4, this]; rfl
      rw [this]
      exact Nat.le_refl _
    · obtain ⟨x, hx, hh⟩ := held_cov r.cov hH s hs hk'
      exact ⟨x, List.mem_cons_of_mem _ hx, hh⟩
  have h5 := cov_stored st.inv hc
  have h6 := st.more.full k e' hk h2 h3 h1
  rw [(r.sim k).stored] at h6
  simp only [remember, hd, hw, List.map_cons, List.sum_cons, List.length_cons, List.length_nil] at hsum h5
  omega

theorem sim_none {d : Option Dgram} (h : Sim none d) : d = none := by
  cases d with
  | none => rfl
  | some d => exact h.elim

theorem sim_some {e : Entry} {o : Option Dgram} (h : Sim (some e) o) : ∃ d, o = some d ∧ SimE e d := by
  cases o with
  | none => exact h.elim
  | some d => exact ⟨d, rfl, h⟩

/-- The entry found or made. -/
theorem sim_base {now : Nat} {o : Option Entry} {e : Entry} {x : Option Dgram} {k : Key} (hb : Base now o e) (hst : e.st = .storing) (h : Sim o x) :
    (x.getD ⟨k, now, none, []⟩).value = none ∧ (x.getD ⟨k, now, none, []⟩).waiting = e.stored ∧ (x = none ∨ ∃ d, x = some d) := by
  rcases hb with rfl | ⟨rfl, h1, h2, h3⟩
  · obtain ⟨d, rfl, -, ⟨g1, g2, g3⟩ | ⟨v, g1, g2, -⟩⟩ := sim_some h
    · exact ⟨g1, g3.symm, .inr ⟨d, rfl⟩⟩
    · rw [hst] at g2; cases g2
  · rw [sim_none h]
    exact ⟨rfl, h2.symm, .inl rfl⟩

theorem getD_key {h : List Dgram} {now now' : Nat} {k : Key} : ((recent T h now k).getD ⟨k, now', none, []⟩).key = k := by
  cases hr : recent T h now k with
  | none => rfl
  | some d => exact (recent_some hr).2.1

theorem ideal_first {mtu : Nat} {h : List Dgram} {now : Nat} {k : Key} {v : Int} {nok : Bool} (h0 : ((recent T h now k).getD ⟨k, now, none, []⟩).value = none) :
    ideal T mtu h (.first now k v nok) = (remember ⟨k, now, some v, []⟩ h, ⟨0, none, ((recent T h now k).getD ⟨k, now, none, []⟩).waiting⟩) := by
  unfold ideal
  dsimp only
  cases hr : recent T h now k with
  | none => rfl
  | some d =>
    rw [hr] at h0
    simp only [Option.getD_some] at h0 ⊢
    rw [h0]

theorem ideal_frag {mtu : Nat} {h : List Dgram} {now : Nat} {k : Key} {id len : Nat} {nok : Bool} {rc : Int}
    (h0 : ((recent T h now k).getD ⟨k, now, none, []⟩).value = none) :
    ideal T mtu h (.frag now k id len nok rc) =
      if mtu < len then (remember { (recent T h now k).getD ⟨k, now, none, []⟩ with last := now } h, ⟨-1, none, []⟩)
      else (remember { (recent T h now k).getD ⟨k, now, none, []⟩ with last := now, waiting := id :: ((recent T h now k).getD ⟨k, now, none, []⟩).waiting } h, ⟨1, none, []⟩) := by
  unfold ideal
  dsimp only
  rw [h0]

theorem stale_false {s : Slot} {now : Nat} (h : Ct.stale s now = false) (hr : s.refered ≤ now) (h64 : now < 2 ^ 64) : now ≤ s.refered + s.ttl := by
  unfold Ct.stale Ct.sub64 at h
  simp only [decide_eq_false_iff_not, gt_iff_lt, Nat.not_lt] at h
  omega

theorem ideal_step {mtu : Nat} {ft : Ft} {t : Nat} {h : List Dgram} (i : FInv N MB MF T ft t 0) (op : Op) (hle : t ≤ timeOf op) (h64 : timeOf op < 2 ^ 64)
    (r0 : Rel T ft h t) (hmtu : ft.mtu = mtu) (hc : ¬ completes op) (hN : MB ≤ N) (hlen : (ideal T mtu h op).1.length ≤ MB)
    (hsum : ((ideal T mtu h op).1.map (fun d => d.waiting.length)).sum ≤ MF) :
    ∃ ft', step ft op = .ok (ft', (ideal T mtu h op).2) ∧ FInv N MB MF T ft' (timeOf op) 0 ∧ Rel T ft' (ideal T mtu h op).1 (timeOf op) ∧ ft'.mtu = mtu := by
  obtain ⟨ft', out, e1, st⟩ := step_all i op hle
  have r := r0.advance i hle h64
  have hm := st.mtu.trans hmtu
  suffices hx : out = (ideal T mtu h op).2 ∧ Rel T ft' (ideal T mtu h op).1 (timeOf op) from ⟨ft', by rw [e1, hx.1], st.inv, hx.2, hm⟩
  cases op with
  | first now k v nok =>
    have hs := r.sim k
    have hself := st.self k rfl
    simp only [timeOf] at hs hself
    generalize hv : view ft now k = o at hself hs
    generalize hv' : view ft' now k = o' at hself
    cases hself with
    | firstFail =>
      exfalso
      have hr := sim_none hs
      rw [ideal_first (by rw [hr]; rfl)] at hlen
      exact no_room st r rfl rfl rfl hlen hN hv hv'
    | firstOk hb hst =>
      obtain ⟨g1, g2, -⟩ := sim_base (k := k) hb hst hs
      rw [ideal_first g1, g2]
      refine ⟨rfl, rel_remember st r rfl rfl rfl hv' ⟨rfl, .inr ⟨v, rfl, rfl, rfl, rfl, rfl⟩⟩⟩
    | firstRefuse hst =>
      obtain ⟨d, hr, hd⟩ := sim_some hs
      obtain ⟨hl, ⟨g1, g2, -⟩ | ⟨w, g1, g2, g3, g4, g5⟩⟩ := hd
      · exact absurd g2 hst
      · have : ideal T mtu h (.first now k v nok) = (remember { d with last := now } h, ⟨-1, none, []⟩) := by
          unfold ideal
          dsimp only
          rw [hr]
          dsimp only
          rw [g1]
        rw [this]
        exact ⟨rfl, rel_remember st r rfl (recent_some hr).2.1 rfl hv' ⟨rfl, .inr ⟨w, g1, g2, g3, g4, g5⟩⟩⟩
  | get now k =>
    have hs := r.sim k
    have hself := st.self k rfl
    simp only [timeOf] at hs hself
    generalize hv : view ft now k = o at hself hs
    generalize hv' : view ft' now k = o' at hself
    cases hself with
    | getNone =>
      have hr := sim_none hs
      have : ideal T mtu h (.get now k) = (h, ⟨-1, none, []⟩) := by
        unfold ideal
        dsimp only
        rw [hr]
      rw [this]
      refine ⟨rfl, r.keys, ?_, ?_⟩
      · intro k'
        by_cases hk : k' = k
        · subst hk
          show Sim (view ft' now k') (recent T h now k')
          rw [hv', hr]
          trivial
        · rw [st.other k' (by simpa [keyOf] using fun h => hk h.symm)]
          exact r.sim k'
      · intro s hs
        have hH := st.more.held k rfl
        by_cases hk : s.key = k
        · have := hH.2 s hs hk
          rw [show timeOf (.get now k) = now from rfl, hv'] at this
          cases this
        · obtain ⟨x, hx, hh⟩ := held_cov r.cov hH s hs hk
          exact ⟨x, (List.mem_filter.1 hx).1, hh⟩
    | getOk hst =>
      obtain ⟨d, hr, hd⟩ := sim_some hs
      obtain ⟨hl, ⟨g1, g2, -⟩ | ⟨w, g1, g2, g3, g4, g5⟩⟩ := hd
      · rw [hst] at g2; cases g2
      · have : ideal T mtu h (.get now k) = (remember { d with last := now } h, ⟨0, some w, []⟩) := by
          unfold ideal
          dsimp only
          rw [hr]
          dsimp only
          rw [g1]
        rw [this]
        exact ⟨by rw [g3], rel_remember st r rfl (recent_some hr).2.1 rfl hv' ⟨rfl, .inr ⟨w, g1, g2, g3, g4, g5⟩⟩⟩
    | getRefuse hst =>
      obtain ⟨d, hr, hd⟩ := sim_some hs
      obtain ⟨hl, ⟨g1, g2, g3⟩ | ⟨w, g1, g2, g3, g4, g5⟩⟩ := hd
      · have : ideal T mtu h (.get now k) = (remember { d with last := now } h, ⟨-1, none, []⟩) := by
          unfold ideal
          dsimp only
          rw [hr]
          dsimp only
          rw [g1]
        rw [this]
        exact ⟨rfl, rel_remember st r rfl (recent_some hr).2.1 rfl hv' ⟨rfl, .inl ⟨g1, g2, g3⟩⟩⟩
      · exact absurd g2 hst
  | frag now k id len nok rc =>
    have hs := r.sim k
    have hself := st.self k rfl
    simp only [timeOf] at hs hself
    generalize hv : view ft now k = o at hself hs
    generalize hv' : view ft' now k = o' at hself
    have hkey : ((recent T h now k).getD ⟨k, now, none, []⟩).key = k := getD_key
    have hwait : ((recent T h now k).getD ⟨k, now, none, []⟩).waiting = ((recent T h now k).map Dgram.waiting).getD [] := by
      cases recent T h now k <;> rfl
    cases hself with
    | fragFail =>
      exfalso
      have hr := sim_none hs
      rw [ideal_frag (by rw [hr]; rfl)] at hlen
      by_cases hb : mtu < len
      · rw [if_pos hb] at hlen
        exact no_room st r rfl rfl hkey hlen hN hv hv'
      · rw [if_neg hb] at hlen
        exact no_room st r rfl rfl hkey hlen hN hv hv'
    | fragOk hst =>
      obtain ⟨d, hr, hd⟩ := sim_some hs
      obtain ⟨hl, ⟨g1, g2, -⟩ | ⟨w, g1, g2, g3, g4, g5⟩⟩ := hd
      · rw [hst] at g2; cases g2
      · have : ideal T mtu h (.frag now k id len nok rc) = (remember { d with last := now } h, ⟨0, some w, []⟩) := by
          unfold ideal
          dsimp only
          rw [hr]
          simp only [Option.getD_some]
          rw [g1]
        rw [this]
        exact ⟨by rw [g3], rel_remember st r rfl (recent_some hr).2.1 rfl hv' ⟨rfl, .inr ⟨w, g1, g2, g3, g4, g5⟩⟩⟩
    | fragDone hst => exact absurd rfl hc
    | fragPoisoned hst =>
      exfalso
      obtain ⟨d, hr, -, ⟨g1, g2, -⟩ | ⟨w, g1, g2, g3, g4, g5⟩⟩ := sim_some hs
      · rw [hst] at g2; cases g2
      · rw [hst] at g2; cases g2
    | fragBig hb hst hl =>
      obtain ⟨g1, g2, -⟩ := sim_base (k := k) hb hst hs
      rw [ideal_frag g1, if_pos (by omega)]
      exact ⟨rfl, rel_remember st r rfl hkey rfl hv' ⟨rfl, .inl ⟨g1, hst, g2.symm⟩⟩⟩
    | fragFull hb hst hl =>
      exfalso
      obtain ⟨g1, g2, -⟩ := sim_base (k := k) hb hst hs
      rw [ideal_frag g1, if_neg (by omega)] at hsum
      refine no_full st r rfl (id := id) (d := { (recent T h now k).getD ⟨k, now, none, []⟩ with last := now, waiting := id :: ((recent T h now k).getD ⟨k, now, none, []⟩).waiting })
        hkey (by simp only [hwait, timeOf]) hsum ?_ hv' rfl rfl
      intro e he
      rw [show timeOf (.frag now k id len nok rc) = now from rfl, hv] at he
      subst he
      rcases hb with h | ⟨h, _⟩
      · injection h with h
        subst h
        rw [hst]
        simp
      · cases h
    | fragStore hb hst hl =>
      obtain ⟨g1, g2, -⟩ := sim_base (k := k) hb hst hs
      rw [ideal_frag g1, if_neg (by omega)]
      exact ⟨rfl, rel_remember st r rfl hkey rfl hv' ⟨rfl, .inl ⟨g1, rfl, by rw [g2]⟩⟩⟩
  | stats now =>
    have hout : out = ⟨0, none, []⟩ := by
      simp only [step, Res.ok.injEq, Prod.mk.injEq] at e1
      exact e1.2.symm
    refine ⟨hout, nodup_filter h _ r.keys, ?_, ?_⟩
    · intro k
      rw [st.other k (by simp [keyOf])]
      have hs := r.sim k
      have : recent T (ideal T mtu h (.stats now)).1 now k = recent T h now k := by
        unfold ideal
        dsimp only
        unfold recent
        rw [List.find?_filter]
        congr 1
        funext d
        by_cases h1 : d.key = k <;> by_cases h2 : now ≤ d.last + T <;> simp [h1, h2]
      rw [show timeOf (.stats now) = now from rfl, this]
      exact hs
    · intro s hs
      obtain ⟨h1, h2, h3⟩ := st.more.clean rfl s hs
      obtain ⟨d, hd, e1, e2, e3⟩ := r.cov s h1
      have hst : (ft'.objs s.data).stored = (ft.objs s.data).stored := congrArg Entry.stored h2
      have hr : s.refered ≤ now := by
        obtain ⟨⟨b, hb, hm⟩, hd⟩ := Ct.stored_iff.1 hs
        exact st.inv.tinv b hb s hm hd
      have := stale_false h3 hr h64
      rw [i.ttlE s h1, ← e2] at this
      refine ⟨d, List.mem_filter.2 ⟨hd, decide_eq_true this⟩, e1, e2, by rw [hst]; exact e3⟩

theorem ideal_run {mtu : Nat} : ∀ (ops : List Op) {ft : Ft} {t : Nat} {h : List Dgram}, FInv N MB MF T ft t 0 → Timed t ops → Rel T ft h t → ft.mtu = mtu →
    (∀ o ∈ ops, ¬ completes o) → MB ≤ N → Fits T mtu MB MF h ops → ∃ ft', run ft ops = .ok (ft', idealOuts T mtu h ops)
  | [], ft, _, _, _, _, _, _, _, _, _ => ⟨ft, rfl⟩
  | o :: os, ft, t, h, i, ht, r, hm, hc, hN, hf => by
    obtain ⟨ft1, e1, i1, r1, m1⟩ := ideal_step i o ht.1 ht.2.1 r hm (hc o (by simp)) hN hf.1 hf.2.1
    obtain ⟨ft2, e2⟩ := ideal_run os i1 ht.2.2 r1 m1 (fun x hx => hc x (List.mem_cons_of_mem _ hx)) hN hf.2.2
    refine ⟨ft2, ?_⟩
    simp only [run, e1, e2, Res.ok_bind, Res.pure_eq, idealOuts]

theorem create_rel {hsize mb mf mtu t : Nat} {reass : Bool} (h : 0 < hsize) (T : Nat) : Rel T (create hsize mb mf mtu t reass) [] 0 := by
  refine ⟨by simp, ?_, ?_⟩
  · intro k
    rw [create_view h]
    trivial
  · intro s hs
    obtain ⟨⟨b, hb, hm⟩, hd⟩ := Ct.stored_iff.1 hs
    have : b = _ := List.eq_of_mem_replicate hb
    rw [this] at hm
    simp [Ct.slots] at hm
    rw [hm] at hd
    simp at hd

/-! ### After the statistics were read -/

theorem create_nothing {hsize mb mf mtu t : Nat} {reass : Bool} (h : 0 < hsize) (s : Slot) : ¬ Stored (create hsize mb mf mtu t reass).ct s := by
  intro hs
  obtain ⟨d, hd, -⟩ := (create_rel (mb := mb) (mf := mf) (mtu := mtu) (t := t) (reass := reass) h 0).cov s hs
  cases hd

/-- Everything that is older than the ttl is forgotten. -/
theorem forgotten {ft ft' : Ft} {t now : Nat} {out : Out} (i : FInv N MB MF T ft t 0) (st : Step N MB MF T ft ft' (.stats now) out) (h64 : now < 2 ^ 64)
    (h : (∀ s, ¬ Stored ft.ct s) ∨ t + T < now) : Rel T ft' [] now := by
  have hno : ∀ s, ¬ Stored ft'.ct s := by
    intro s hs
    obtain ⟨h1, h2, h3⟩ := st.more.clean rfl s hs
    rcases h with h | h
    · exact h s h1
    · have hr : s.refered ≤ t := by
        obtain ⟨⟨b, hb, hm⟩, hd⟩ := Ct.stored_iff.1 h1
        exact i.tinv b hb s hm hd
      have := stale_false (now := now) h3 (by omega) h64
      rw [i.ttlE s h1] at this
      omega
  refine ⟨by simp, ?_, fun s hs => absurd hs (hno s)⟩
  intro k
  have : view ft' now k = none := by
    cases hv : view ft' now k with
    | none => rfl
    | some e =>
      exfalso
      unfold view at hv
      cases hl : liveT ft'.ct now k with
      | none => rw [hl] at hv; cases hv
      | some s => exact hno s (Ct.stored_of_live hl).1
  rw [this]
  trivial

theorem endTime_mem : ∀ (ops : List Op) (t : Nat), ops ≠ [] → ∃ o ∈ ops, endTime t ops = timeOf o
  | [], _, h => absurd rfl h
  | [o], _, _ => ⟨o, by simp, rfl⟩
  | o :: o' :: os, t, _ => by
    obtain ⟨x, hx, e⟩ := endTime_mem (o' :: os) (timeOf o) (by simp)
    exact ⟨x, List.mem_cons_of_mem _ hx, e⟩

theorem run_two : ∀ {a b : List Op} {ft ft1 ft2 : Ft} {r1 r2 : List Out}, run ft a = .ok (ft1, r1) → run ft1 b = .ok (ft2, r2) → run ft (a ++ b) = .ok (ft2, r1 ++ r2)
  | [], b, ft, ft1, ft2, r1, r2, h1, h2 => by cases h1; exact h2
  | o :: a, b, ft, ft1, ft2, r1, r2, h1, h2 => by
    cases hs : step ft o with
    | ok x =>
      obtain ⟨fta, out⟩ := x
      obtain ⟨rs, rfl, e2⟩ := run_cons (ops := a) hs h1
      exact run_cons' hs (run_two e2 h2)
    | die => simp [run, hs] at h1
    | ub => simp [run, hs] at h1
    | hang => simp [run, hs] at h1

/-! ### Few datagrams and few fragments always fit -/

def total (h : List Dgram) : Nat := (h.map (fun d => d.waiting.length)).sum

theorem total_filter (p : Dgram → Bool) : ∀ h : List Dgram, total (h.filter p) ≤ total h
  | [] => Nat.le_refl _
  | d :: h => by
    have := total_filter p h
    unfold total at this ⊢
    rw [List.filter_cons]
    split
    · simp only [List.map_cons, List.sum_cons]; omega
    · simp only [List.map_cons, List.sum_cons]; omega

theorem total_without {k : Key} : ∀ {h : List Dgram} {d : Dgram}, d ∈ h → d.key = k → total (h.filter (fun x => decide (x.key ≠ k))) + d.waiting.length ≤ total h
  | [], d, hd, _ => by cases hd
  | a :: h, d, hd, hk => by
    rcases List.mem_cons.1 hd with rfl | hd
    · have := total_filter (fun x => decide (x.key ≠ k)) h
      rw [List.filter_cons, if_neg (by simp [hk])]
      unfold total at this ⊢
      simp only [List.map_cons, List.sum_cons]
      omega
    · have := total_without hd hk
      unfold total at this ⊢
      rw [List.filter_cons]
      split
      · simp only [List.map_cons, List.sum_cons]; omega
      · simp only [List.map_cons, List.sum_cons]; omega

theorem total_recent {h : List Dgram} {now : Nat} {k : Key} (d : Dgram) (hk : d.key = k) :
    total (remember d h) + (((recent T h now k).map Dgram.waiting).getD []).length ≤ total h + d.waiting.length := by
  have h1 : total (remember d h) = d.waiting.length + total (h.filter (fun x => decide (x.key ≠ k))) := by
    unfold total remember
    rw [List.map_cons, List.sum_cons, hk]
  rw [h1]
  cases hr : recent T h now k with
  | none =>
    have := total_filter (fun x => decide (x.key ≠ k)) h
    simp only [Option.map_none, Option.getD_none, List.length_nil]
    omega
  | some d0 =>
    obtain ⟨g1, g2, -⟩ := recent_some hr
    have := total_without g1 g2
    simp only [Option.map_some, Option.getD_some]
    omega

structure Small (ks : List Key) (n : Nat) (h : List Dgram) : Prop where
  keys : (h.map Dgram.key).Nodup
  sub : ∀ d ∈ h, d.key ∈ ks
  tot : total h ≤ n

theorem Small.remember {ks : List Key} {n : Nat} {h : List Dgram} (s : Small ks n h) {now : Nat} {k : Key} (hk : k ∈ ks) {d : Dgram} (hd : d.key = k) {m : Nat}
    (hw : d.waiting.length ≤ (((recent T h now k).map Dgram.waiting).getD []).length + m) : Small ks (n + m) (remember d h) := by
  refine ⟨remember_keys d s.keys, ?_, ?_⟩
  · intro x hx
    unfold Spec.Frag.remember at hx
    rcases List.mem_cons.1 hx with rfl | hx
    · rw [hd]; exact hk
    · exact s.sub x (List.mem_filter.1 hx).1
  · have := total_recent (T := T) (h := h) (now := now) d hd
    have := s.tot
    omega

theorem small_step {mtu : Nat} {ks : List Key} {n : Nat} {h : List Dgram} (s : Small ks n h) (op : Op) (hk : ∀ k, keyOf op = some k → k ∈ ks) :
    Small ks (n + if isLater op = true then 1 else 0) (ideal T mtu h op).1 := by
  cases op with
  | first now k v nok =>
    have hk' := hk k rfl
    unfold ideal
    dsimp only
    cases hr : recent T h now k with
    | none => exact s.remember (T := T) (now := now) hk' rfl (by simp)
    | some d =>
      dsimp only
      cases d.value with
      | none => exact s.remember (T := T) (now := now) hk' rfl (by simp)
      | some w =>
        refine Small.remember (T := T) (now := now) (k := k) s hk' ?_ ?_
        · exact (recent_some hr).2.1
        · rw [hr]; simp
  | get now k =>
    have hk' := hk k rfl
    unfold ideal
    dsimp only
    cases hr : recent T h now k with
    | none => exact s
    | some d =>
      refine Small.remember (T := T) (now := now) (k := k) s hk' ?_ ?_
      · exact (recent_some hr).2.1
      · rw [hr]; simp
  | frag now k id len nok rc =>
    have hk' := hk k rfl
    have hkey : ((recent T h now k).getD ⟨k, now, none, []⟩).key = k := getD_key
    have hwait : ((recent T h now k).getD ⟨k, now, none, []⟩).waiting = ((recent T h now k).map Dgram.waiting).getD [] := by
      cases recent T h now k <;> rfl
    cases hv : ((recent T h now k).getD ⟨k, now, none, []⟩).value with
    | none =>
      rw [ideal_frag hv]
      by_cases hb : mtu < len
      · rw [if_pos hb]
        refine Small.remember (T := T) (now := now) (k := k) s hk' ?_ ?_
        · exact hkey
        · simp only [hwait]; omega
      · rw [if_neg hb]
        refine Small.remember (T := T) (now := now) (k := k) s hk' ?_ ?_
        · exact hkey
        simp only [List.length_cons, hwait, isLater, if_true]
        exact Nat.le_refl _
    | some w =>
      unfold ideal
      dsimp only
      rw [hv]
      refine Small.remember (T := T) (now := now) (k := k) s hk' ?_ ?_
      · exact hkey
      · simp only [hwait]; omega
  | stats now =>
    refine ⟨nodup_filter h _ s.keys, ?_, ?_⟩
    · intro d hd
      exact s.sub d (List.mem_filter.1 hd).1
    · exact Nat.le_trans (total_filter _ h) (Nat.le_trans s.tot (Nat.le_add_right _ _))

theorem nodup_length {l ks : List Key} (hn : l.Nodup) (hs : ∀ k ∈ l, k ∈ ks) : l.length ≤ ks.length := by
  have := sum_le (fun k : Key => k) (fun _ => 1) (fun _ => 1) l (ks.map (fun k => ⟨k, 0, none, []⟩)) (by simpa using hn) (by
    intro k hk
    exact ⟨⟨k, 0, none, []⟩, List.mem_map.2 ⟨k, hs k hk, rfl⟩, rfl, Nat.le_refl _⟩)
  rw [sum_ones, sum_ones] at this
  simpa using this

theorem small_fits {mtu mb mf : Nat} {ks : List Key} (hks : ks.length ≤ mb) : ∀ (ops : List Op) {n : Nat} {h : List Dgram}, Small ks n h →
    (∀ o ∈ ops, ∀ k, keyOf o = some k → k ∈ ks) → n + ops.countP isLater ≤ mf → Fits T mtu mb mf h ops
  | [], _, _, _, _, _ => trivial
  | o :: os, n, h, s, hk, hn => by
    have h1 := small_step (T := T) (mtu := mtu) s o (hk o (by simp))
    rw [List.countP_cons] at hn
    refine ⟨?_, ?_, small_fits hks os h1 (fun x hx => hk x (List.mem_cons_of_mem _ hx)) (by omega)⟩
    · have := nodup_length (ks := ks) h1.keys (by
        intro k hk
        obtain ⟨d, hd, rfl⟩ := List.mem_map.1 hk
        exact h1.sub d hd)
      rw [List.length_map] at this
      omega
    · have := h1.tot
      unfold total at this
      omega

/-- The ideal table refuses later fragments only for their size. -/
theorem ideal_later {mtu : Nat} {h : List Dgram} {now : Nat} {k : Key} {id len : Nat} {nok : Bool} {rc : Int} (hl : len ≤ mtu) :
    (ideal T mtu h (.frag now k id len nok rc)).2.rc ≠ -1 := by
  unfold ideal
  dsimp only
  split
  · simp
  · rw [if_neg (by omega)]
    simp

theorem idealOuts_later {mtu : Nat} {now : Nat} {k : Key} {id len : Nat} {nok : Bool} {rc : Int} {r : Out} (hl : len ≤ mtu) : ∀ (ops : List Op) (h : List Dgram),
    (Op.frag now k id len nok rc, r) ∈ ops.zip (idealOuts T mtu h ops) → r.rc ≠ -1
  | [], _, hm => by cases hm
  | o :: os, h, hm => by
    rw [idealOuts, List.zip_cons_cons] at hm
    rcases List.mem_cons.1 hm with hm | hm
    · injection hm with h1 h2
      subst h1
      rw [h2]
      exact ideal_later hl
    · exact idealOuts_later hl os _ hm

end Nfqlb.Frag
