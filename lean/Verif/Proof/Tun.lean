import Verif.Spec.Tun
import Verif.Proof.EndToEnd
import Verif.Proof.FragIdeal

/-! Fragments that overtake the first fragment. -/

set_option autoImplicit false

namespace Nfqlb.Tun

open Nfqlb Nfqlb.E2E Nfqlb.Spec.E2E Nfqlb.Spec.Tun Nfqlb.Spec.Frag
open Nfqlb.Frag (Ft FInv Rel Small)

variable {N MB MF T mtu : Nat} {ks : List Key}

/-- Everything that is known between two packets, with the ideal table. -/
structure Good (N MB MF T mtu : Nat) (ks : List Key) (s : St) (h : List Dgram) (t n : Nat) : Prop where
  inv : FInv N MB MF T s.ft t 0
  rel : Rel T s.ft h t
  mtu : s.ft.mtu = mtu
  small : Small ks n h
  ids : ∀ d ∈ h, ∀ i ∈ d.waiting, i < s.mem.length

/-- The operation of a packet. -/
def opOf (a : Arrival) (id : Nat) : LbAction → Option Frag.Op
  | .verdict _ => none
  | .later k => some (.frag a.now k id a.data.length a.newOk a.rcAsm)
  | .first k fw => some (.first a.now k fw a.newOk)

/-- What the packet does to the ideal table, and what comes out. -/
def idealA (T mtu : Nat) (h : List Dgram) (a : Arrival) (id : Nat) : LbAction → List Dgram × Int × List Nat
  | .verdict fw => (h, fw, [])
  | .later k =>
    let r := ideal T mtu h (.frag a.now k id a.data.length a.newOk a.rcAsm)
    (r.1, if r.2.rc = 0 then r.2.value.getD 0 else -1, [])
  | .first k fw =>
    let r := ideal T mtu h (.first a.now k fw a.newOk)
    (r.1, if r.2.rc = 0 then fw else -1, r.2.injected)

/-- 1 for later fragments. -/
def lcount : LbAction → Nat
  | .later _ => 1
  | _ => 0

theorem writes_lt (tun : Bool) (mem : List Packet) : ∀ ids : List Nat, (∀ i ∈ ids, i < mem.length) → ∃ ps, writes tun mem ids = .ok ps
  | [], _ => ⟨[], rfl⟩
  | i :: is, h => by
    obtain ⟨ps, e⟩ := writes_lt tun mem is (fun x hx => h x (List.mem_cons_of_mem _ hx))
    refine ⟨if tun then mem[i]'(h i (by simp)) :: ps else ps, ?_⟩
    simp only [writes, List.getElem?_eq_getElem (h i (by simp)), e, Res.ok_bind, Res.pure_eq]

theorem writes_append {tun : Bool} {mem m : List Packet} : ∀ {ids : List Nat} {ps : List Packet}, writes tun mem ids = .ok ps → writes tun (mem ++ m) ids = .ok ps
  | [], _, h => h
  | i :: is, ps, h => by
    simp only [writes] at h ⊢
    cases hi : mem[i]? with
    | none => rw [hi] at h; cases h
    | some p =>
      rw [hi] at h
      dsimp only at h
      obtain ⟨hlt, -⟩ := List.getElem?_eq_some_iff.1 hi
      rw [List.getElem?_append_left hlt, hi]
      dsimp only
      cases hw : writes tun mem is with
      | ok qs =>
        rw [hw] at h
        rw [writes_append hw]
        exact h
      | die => rw [hw] at h; cases h
      | ub => rw [hw] at h; cases h
      | hang => rw [hw] at h; cases h

/-- The packets that wait in the ideal table are known. -/
theorem ideal_ids {h : List Dgram} {m : Nat} (hi : ∀ d ∈ h, ∀ i ∈ d.waiting, i < m) (a : Arrival) (act : LbAction) :
    (∀ d ∈ (idealA T mtu h a m act).1, ∀ i ∈ d.waiting, i < m + 1) ∧ ∀ i ∈ (idealA T mtu h a m act).2.2, i < m + 1 := by
  have hi' : ∀ d ∈ h, ∀ i ∈ d.waiting, i < m + 1 := fun d hd i hx => Nat.lt_succ_of_lt (hi d hd i hx)
  have hrem : ∀ d : Dgram, (∀ i ∈ d.waiting, i < m + 1) → ∀ x ∈ remember d h, ∀ i ∈ x.waiting, i < m + 1 := by
    intro d hd x hx
    unfold remember at hx
    rcases List.mem_cons.1 hx with rfl | hx
    · exact hd
    · exact hi' x (List.mem_filter.1 hx).1
  cases act with
  | verdict fw => exact ⟨hi', by simp [idealA]⟩
  | later k =>
    refine ⟨?_, by simp [idealA]⟩
    unfold idealA ideal
    dsimp only
    have h0 : ∀ i ∈ ((recent T h a.now k).getD ⟨k, a.now, none, []⟩).waiting, i < m + 1 := by
      cases hr : recent T h a.now k with
      | none => simp
      | some d => exact hi' d (Frag.recent_some hr).1
    split
    · exact hrem _ h0
    · split
      · exact hrem _ h0
      · refine hrem _ ?_
        intro i hx
        rcases List.mem_cons.1 hx with rfl | hx
        · exact Nat.lt_succ_self _
        · exact h0 i hx
  | first k fw =>
    unfold idealA ideal
    dsimp only
    cases hr : recent T h a.now k with
    | none => exact ⟨hrem _ (by simp), by simp⟩
    | some d =>
      have hd := hi' d (Frag.recent_some hr).1
      dsimp only
      cases d.value with
      | none => exact ⟨hrem _ (by simp), hd⟩
      | some v => exact ⟨hrem _ hd, by simp⟩

/-- One packet. -/
theorem arr_step {s : St} {h : List Dgram} {t n : Nat} (g : Good N MB MF T mtu ks s h t n) (hks : ks.length ≤ MB) (hN : MB ≤ N) (tun : Bool) (a : Arrival) (ht : t ≤ a.now) (h64 : a.now < 2 ^ 64)
    {act : LbAction} (ha : action a = .ok act) (hk : ∀ k, About a k → k ∈ ks) (hrc : a.rcAsm ≠ 0) (hn : n + lcount act ≤ MF) :
    ∃ s' ps t', handle tun s a = .ok (s', (idealA T mtu h a s.mem.length act).2.1, ps) ∧ writes tun s'.mem (idealA T mtu h a s.mem.length act).2.2 = .ok ps ∧
      s'.mem = s.mem ++ [a.data] ∧ t ≤ t' ∧ t' ≤ a.now ∧ Good N MB MF T mtu ks s' (idealA T mtu h a s.mem.length act).1 t' (n + lcount act) := by
  obtain ⟨gi1, gi2⟩ := ideal_ids (T := T) (mtu := mtu) g.ids a act
  have ha' : action { a with id := s.mem.length } = .ok act := ha
  -- the table
  have key : ∃ ft' t', E2E.handle s.ft { a with id := s.mem.length } = .ok (ft', (idealA T mtu h a s.mem.length act).2) ∧ t ≤ t' ∧ t' ≤ a.now ∧ FInv N MB MF T ft' t' 0 ∧
      Rel T ft' (idealA T mtu h a s.mem.length act).1 t' ∧ ft'.mtu = mtu ∧ Small ks (n + lcount act) (idealA T mtu h a s.mem.length act).1 := by
    cases act with
    | verdict fw =>
      refine ⟨s.ft, t, ?_, Nat.le_refl _, ht, g.inv, g.rel, g.mtu, g.small⟩
      simp only [E2E.handle, ha', Res.ok_bind, finish, idealA]
    | later k =>
      have hkk : k ∈ ks := hk k (.inl ha)
      have hsm := Frag.small_step (T := T) (mtu := mtu) g.small (.frag a.now k s.mem.length a.data.length a.newOk a.rcAsm) (by
        intro k' hk'
        simp only [keyOf, Option.some.injEq] at hk'
        rw [← hk']; exact hkk)
      simp only [isLater, if_true] at hsm
      have hlen := Frag.nodup_length (ks := ks) hsm.keys (by
        intro k hk
        obtain ⟨d, hd, rfl⟩ := List.mem_map.1 hk
        exact hsm.sub d hd)
      rw [List.length_map] at hlen
      have htot := hsm.tot
      unfold Frag.total at htot
      simp only [lcount] at hn
      obtain ⟨ft', e1, i1, r1, m1⟩ := Frag.ideal_step g.inv (.frag a.now k s.mem.length a.data.length a.newOk a.rcAsm) ht h64 g.rel g.mtu hrc hN (by omega) (by omega)
      refine ⟨ft', a.now, ?_, ht, Nat.le_refl _, i1, r1, m1, hsm⟩
      simp only [E2E.handle, ha', Res.ok_bind, finish, e1, idealA]
      have hv : (ideal T mtu h (.frag a.now k s.mem.length a.data.length a.newOk a.rcAsm)).2.rc = 0 →
          ∃ v, (ideal T mtu h (.frag a.now k s.mem.length a.data.length a.newOk a.rcAsm)).2.value = some v := by
        unfold ideal
        dsimp only
        split
        · intro _; exact ⟨_, rfl⟩
        · split
          · intro h; cases h
          · intro h; cases h
      split
      · rename_i fw h1 h2
        rw [h1, h2]; rfl
      · rename_i h1 h2
        obtain ⟨v, hv⟩ := hv h1
        rw [h2] at hv; cases hv
      · rename_i h1 h2
        have : (ideal T mtu h (.frag a.now k s.mem.length a.data.length a.newOk a.rcAsm)).2.rc ≠ 0 := by
          intro h0
          obtain ⟨v, hv⟩ := hv h0
          exact h1 _ h0 hv
        rw [if_neg this]; rfl
    | first k fw =>
      have hkk : k ∈ ks := hk k (.inr ⟨fw, ha⟩)
      have hsm := Frag.small_step (T := T) (mtu := mtu) g.small (.first a.now k fw a.newOk) (by
        intro k' hk'
        simp only [keyOf, Option.some.injEq] at hk'
        rw [← hk']; exact hkk)
      simp only [isLater, Bool.false_eq_true, if_false] at hsm
      have hlen := Frag.nodup_length (ks := ks) hsm.keys (by
        intro k hk
        obtain ⟨d, hd, rfl⟩ := List.mem_map.1 hk
        exact hsm.sub d hd)
      rw [List.length_map] at hlen
      have htot := hsm.tot
      unfold Frag.total at htot
      simp only [lcount] at hn
      obtain ⟨ft', e1, i1, r1, m1⟩ := Frag.ideal_step g.inv (.first a.now k fw a.newOk) ht h64 g.rel g.mtu (fun h => h) hN (by omega) (by omega)
      refine ⟨ft', a.now, ?_, ht, Nat.le_refl _, i1, r1, m1, hsm⟩
      simp only [E2E.handle, ha', Res.ok_bind, finish, e1, idealA]
      by_cases h0 : (ideal T mtu h (.first a.now k fw a.newOk)).2.rc = 0
      · rw [if_neg (by simpa using h0), if_pos h0]; rfl
      · rw [if_pos h0, if_neg h0]; rfl
  obtain ⟨ft', t', e, l1, l2, i', r', m', sm'⟩ := key
  obtain ⟨ps, hw⟩ := writes_lt tun (s.mem ++ [a.data]) (idealA T mtu h a s.mem.length act).2.2 (by simpa using gi2)
  refine ⟨⟨ft', s.mem ++ [a.data]⟩, ps, t', ?_, hw, rfl, l1, l2, i', r', m', sm', by simpa using gi1⟩
  simp only [handle, e, Res.ok_bind, hw, Res.pure_eq]

/-! ### One datagram -/

/-- A packet that is not about `k` changes nothing about `k`. -/
theorem idealA_other {h : List Dgram} {a : Arrival} {id : Nat} {act : LbAction} (ha : action a = .ok act) {k : Key} (hk : ¬ About a k) (d : Dgram) (hd : d.key = k) :
    d ∈ (idealA T mtu h a id act).1 ↔ d ∈ h := by
  have hrem : ∀ x : Dgram, x.key ≠ k → (d ∈ remember x h ↔ d ∈ h) := by
    intro x hx
    unfold remember
    rw [List.mem_cons, List.mem_filter]
    constructor
    · rintro (rfl | h)
      · exact absurd hd hx
      · exact h.1
    · intro h
      refine .inr ⟨h, ?_⟩
      simp only [decide_eq_true_eq, hd]
      exact fun e => hx e.symm
  cases act with
  | verdict fw => rfl
  | later k' =>
    have hne : k' ≠ k := fun e => hk (.inl (e ▸ ha))
    have hkey : ((recent T h a.now k').getD ⟨k', a.now, none, []⟩).key = k' := Frag.getD_key
    unfold idealA ideal
    dsimp only
    split
    · exact hrem _ (by dsimp only; rw [hkey]; exact hne)
    · split
      · exact hrem _ (by dsimp only; rw [hkey]; exact hne)
      · exact hrem _ (by dsimp only; rw [hkey]; exact hne)
  | first k' fw =>
    have hne : k' ≠ k := fun e => hk (.inr ⟨fw, e ▸ ha⟩)
    unfold idealA ideal
    dsimp only
    cases hr : recent T h a.now k' with
    | none => exact hrem _ hne
    | some x =>
      have hx := (Frag.recent_some hr).2.1
      dsimp only
      cases x.value with
      | none => exact hrem _ hne
      | some v => exact hrem _ (by dsimp only; rw [hx]; exact hne)

/-- A packet about `k` is what is remembered about `k` afterwards. -/
theorem idealA_last {h : List Dgram} {a : Arrival} {id : Nat} {act : LbAction} {k : Key} (hk : act = .later k ∨ ∃ fw, act = .first k fw) (d : Dgram) (hd : d.key = k)
    (hm : d ∈ (idealA T mtu h a id act).1) : d.last = a.now := by
  have hrem : ∀ x : Dgram, x.key = k → x.last = a.now → d ∈ remember x h → d.last = a.now := by
    intro x hx hl hm
    unfold remember at hm
    rcases List.mem_cons.1 hm with rfl | hm
    · exact hl
    · have := (List.mem_filter.1 hm).2
      simp only [decide_eq_true_eq, hd, hx] at this
      exact absurd rfl this
  rcases hk with rfl | ⟨fw, rfl⟩
  · have hkey : ((recent T h a.now k).getD ⟨k, a.now, none, []⟩).key = k := Frag.getD_key
    unfold idealA ideal at hm
    dsimp only at hm
    split at hm
    · exact hrem _ (by dsimp only; exact hkey) rfl hm
    · split at hm
      · exact hrem _ (by dsimp only; exact hkey) rfl hm
      · exact hrem _ (by dsimp only; exact hkey) rfl hm
  · unfold idealA ideal at hm
    dsimp only at hm
    cases hr : recent T h a.now k with
    | none => rw [hr] at hm; exact hrem ⟨k, a.now, some fw, []⟩ rfl rfl hm
    | some x =>
      have hx := (Frag.recent_some hr).2.1
      rw [hr] at hm
      dsimp only at hm
      cases hv : x.value with
      | none => rw [hv] at hm; exact hrem ⟨k, a.now, some fw, []⟩ rfl rfl hm
      | some v => rw [hv] at hm; exact hrem ⟨x.key, a.now, some v, x.waiting⟩ hx rfl hm

/-- What is asked of the packets to come. -/
structure Hyp (MF : Nat) (ks : List Key) (t n : Nat) (l : List Arrival) : Prop where
  timed : Spec.E2E.Timed t l
  dec : ∀ a ∈ l, ∃ act, action a = .ok act
  keys : ∀ a ∈ l, ∀ k, About a k → k ∈ ks
  rc : ∀ a ∈ l, a.rcAsm ≠ 0
  cnt : n + l.countP (fun a => match action a with | .ok (.later _) => true | _ => false) ≤ MF

theorem Hyp.tail {t n t' : Nat} {a : Arrival} {l : List Arrival} (y : Hyp MF ks t n (a :: l)) {act : LbAction} (ha : action a = .ok act) (ht : t' ≤ a.now) :
    n + lcount act ≤ MF ∧ Hyp MF ks t' (n + lcount act) l := by
  have hc := y.cnt
  rw [List.countP_cons] at hc
  have : (if (match action a with | .ok (.later _) => true | _ => false) = true then 1 else 0) = lcount act := by
    rw [ha]
    cases act <;> rfl
  rw [this] at hc
  exact ⟨by omega, timed_mono ht y.timed.2.2, fun x hx => y.dec x (List.mem_cons_of_mem _ hx), fun x hx => y.keys x (List.mem_cons_of_mem _ hx), fun x hx => y.rc x (List.mem_cons_of_mem _ hx), by omega⟩

/-- One packet, in a history. -/
theorem hyp_step {s : St} {h : List Dgram} {t n : Nat} (g : Good N MB MF T mtu ks s h t n) (hks : ks.length ≤ MB) (hN : MB ≤ N) (tun : Bool) {a : Arrival} {l : List Arrival} (y : Hyp MF ks t n (a :: l)) :
    ∃ act s' ps t', action a = .ok act ∧ handle tun s a = .ok (s', (idealA T mtu h a s.mem.length act).2.1, ps) ∧ writes tun s'.mem (idealA T mtu h a s.mem.length act).2.2 = .ok ps ∧
      s'.mem = s.mem ++ [a.data] ∧ Good N MB MF T mtu ks s' (idealA T mtu h a s.mem.length act).1 t' (n + lcount act) ∧ Hyp MF ks t' (n + lcount act) l := by
  obtain ⟨act, ha⟩ := y.dec a (by simp)
  obtain ⟨hn, -⟩ := y.tail ha (Nat.le_refl _)
  obtain ⟨s', ps, t', e1, e2, e3, l1, l2, g'⟩ := arr_step g hks hN tun a y.timed.1 y.timed.2.1 ha (y.keys a (by simp)) (y.rc a (by simp)) hn
  exact ⟨act, s', ps, t', ha, e1, e2, e3, g', (y.tail ha l2).2⟩

theorem run_cons {tun : Bool} {s s1 s2 : St} {a : Arrival} {as : List Arrival} {v : Int} {ps : List Packet} {os : List (Int × List Packet)} (h1 : handle tun s a = .ok (s1, v, ps))
    (h2 : run tun s1 as = .ok (s2, os)) : run tun s (a :: as) = .ok (s2, (v, ps) :: os) := by
  simp only [run, h1, h2, Res.ok_bind, Res.pure_eq]

theorem run_append {tun : Bool} : ∀ {l m : List Arrival} {s s1 s2 : St} {os os' : List (Int × List Packet)}, run tun s l = .ok (s1, os) → run tun s1 m = .ok (s2, os') →
    run tun s (l ++ m) = .ok (s2, os ++ os')
  | [], m, s, s1, s2, os, os', h1, h2 => by cases h1; exact h2
  | a :: l, m, s, s1, s2, os, os', h1, h2 => by
    cases hx : handle tun s a with
    | ok x =>
      obtain ⟨sa, va, pa⟩ := x
      simp only [run, hx, Res.ok_bind] at h1
      cases hr : run tun sa l with
      | ok y =>
        obtain ⟨sb, ob⟩ := y
        simp only [hr, Res.ok_bind, Res.pure_eq, Res.ok.injEq, Prod.mk.injEq] at h1
        obtain ⟨rfl, rfl⟩ := h1
        exact run_cons hx (run_append hr h2)
      | die => simp [hr] at h1
      | ub => simp [hr] at h1
      | hang => simp [hr] at h1
    | die => simp [run, hx] at h1
    | ub => simp [run, hx] at h1
    | hang => simp [run, hx] at h1

/-- Before: what is remembered about `k` is the last packet about `k`. -/
theorem run_before (hks : ks.length ≤ MB) (hN : MB ≤ N) (tun : Bool) (k : Key) (P : Nat → Prop) (m : List Arrival) : ∀ (l : List Arrival) {s : St} {h : List Dgram} {t n : Nat}, Good N MB MF T mtu ks s h t n →
    Hyp MF ks t n (l ++ m) → (∀ d ∈ h, d.key = k → P d.last) → (∀ a ∈ l, About a k → P a.now) →
    ∃ s' os h' t' n', run tun s l = .ok (s', os) ∧ os.length = l.length ∧ Good N MB MF T mtu ks s' h' t' n' ∧ Hyp MF ks t' n' m ∧ (∀ d ∈ h', d.key = k → P d.last)
  | [], s, h, t, n, g, y, hP, _ => ⟨s, [], h, t, n, rfl, rfl, g, y, hP⟩
  | a :: l, s, h, t, n, g, y, hP, hl => by
    obtain ⟨act, s1, ps, t1, ha, e1, -, -, g1, y1⟩ := hyp_step g hks hN tun y
    obtain ⟨s', os, h', t', n', e2, l2, g2, y2, p2⟩ := run_before hks hN tun k P m l g1 y1 (by
      intro d hd hk
      by_cases hab : About a k
      · have hact : act = .later k ∨ ∃ fw, act = .first k fw := by
          rcases hab with h | ⟨fw, h⟩
          · rw [IsLater, ha] at h; exact .inl (Res.ok.inj h)
          · rw [IsFirst, ha] at h; exact .inr ⟨fw, Res.ok.inj h⟩
        rw [idealA_last hact d hk hd]
        exact hl a (by simp) hab
      · exact hP d ((idealA_other ha hab d hk).1 hd) hk) (fun x hx => hl x (List.mem_cons_of_mem _ hx))
    exact ⟨s', _, h', t', n', run_cons e1 e2, by simp [l2], g2, y2, p2⟩

/-- Fragments of `k` never come more than `T` after the one before, the last one of which came at `last`. -/
def CloseR (T : Nat) (k : Key) : Option Nat → List Arrival → Prop
  | _, [] => True
  | last, a :: as => (About a k → (∀ l, last = some l → a.now ≤ l + T) ∧ CloseR T k (some a.now) as) ∧ (¬ About a k → CloseR T k last as)

theorem closeR_from {k : Key} : ∀ (l : List Arrival) (x : Arrival) (mid : List Arrival), Together T k (x :: mid ++ l) → About x k → (∀ c ∈ mid, ¬ About c k) → CloseR T k (some x.now) l
  | [], _, _, _, _, _ => trivial
  | a :: l, x, mid, ht, hx, hm => by
    constructor
    · intro ha
      refine ⟨?_, ?_⟩
      · rintro _ ⟨⟩
        exact ht [] x mid a l (by simp) hx ha hm
      · refine closeR_from l a [] ?_ ha (by simp)
        intro l1 b l2 c l3 e
        exact ht (x :: mid ++ l1) b l2 c l3 (by
          have : x :: mid ++ a :: l = (x :: mid) ++ (a :: [] ++ l) := by simp
          rw [this, e]; simp)
    · intro ha
      refine closeR_from l x (mid ++ [a]) (by simpa using ht) hx ?_
      intro c hc
      rcases List.mem_append.1 hc with hc | hc
      · exact hm c hc
      · rw [List.mem_singleton.1 hc]; exact ha

theorem closeR_none {k : Key} : ∀ (l : List Arrival), Together T k l → CloseR T k none l
  | [], _ => trivial
  | a :: l, ht => by
    constructor
    · intro ha
      exact ⟨by simp, closeR_from l a [] (by simpa using ht) ha (by simp)⟩
    · intro ha
      refine closeR_none l ?_
      intro l1 b l2 c l3 e
      exact ht (a :: l1) b l2 c l3 (by rw [e]; simp)

/-- What is remembered about `k` while the first fragment has not come: nothing that is recent, or the packets that wait. -/
def Pend (P : Nat → Prop) (k : Key) (h : List Dgram) (mem : List Packet) (ps : List Packet) : Option Nat → Prop
  | none => ps = [] ∧ ∀ d ∈ h, d.key = k → P d.last
  | some l => ∃ d ∈ h, d.key = k ∧ d.last = l ∧ d.value = none ∧ writes true mem d.waiting = .ok ps

theorem Pend.recent {P : Nat → Prop} {k : Key} {h : List Dgram} {mem ps : List Packet} {last : Option Nat} (p : Pend P k h mem ps last) (hn : (h.map Dgram.key).Nodup) {now : Nat}
    (hP : ∀ x, P x → x + T < now) (hl : ∀ l, last = some l → now ≤ l + T) :
    ((Spec.Frag.recent T h now k).getD ⟨k, now, none, []⟩).value = none ∧ ((Spec.Frag.recent T h now k).getD ⟨k, now, none, []⟩).key = k ∧
      writes true mem ((Spec.Frag.recent T h now k).getD ⟨k, now, none, []⟩).waiting = .ok ps := by
  cases last with
  | none =>
    obtain ⟨rfl, hd⟩ := p
    have : Spec.Frag.recent T h now k = none := by
      cases hr : Spec.Frag.recent T h now k with
      | none => rfl
      | some d =>
        obtain ⟨h1, h2, h3⟩ := Frag.recent_some hr
        have := hP _ (hd d h1 h2)
        omega
    rw [this]
    exact ⟨rfl, rfl, rfl⟩
  | some l =>
    obtain ⟨d, hd, hk, hl', hv, hw⟩ := p
    have := Frag.recent_of_mem (T := T) hn hd (now := now) (by rw [hl']; exact hl l rfl)
    rw [hk] at this
    rw [this]
    exact ⟨hv, hk, hw⟩

/-- While the first fragment has not come. -/
theorem run_waiting (hks : ks.length ≤ MB) (hN : MB ≤ N) {k : Key} {P : Nat → Prop} (m : List Arrival) : ∀ (w : List Arrival) {s : St} {h : List Dgram} {t n : Nat} {ps : List Packet} {last : Option Nat},
    Good N MB MF T mtu ks s h t n → Hyp MF ks t n (w ++ m) → Pend P k h s.mem ps last → CloseR T k last (w ++ m) → (∀ a ∈ w, About a k → ∀ x, P x → x + T < a.now) →
    (∀ a ∈ w, ∀ fw, ¬ IsFirst a k fw) → (∀ a ∈ w, IsLater a k → a.data.length ≤ mtu) →
    ∃ s' os h' t' n' last', run true s w = .ok (s', os) ∧ os.length = w.length ∧ Good N MB MF T mtu ks s' h' t' n' ∧ Hyp MF ks t' n' m ∧ Pend P k h' s'.mem ((laters k w).reverse ++ ps) last' ∧ CloseR T k last' m ∧
      ∀ a o, (a, o) ∈ w.zip os → IsLater a k → o = (-1, [])
  | [], s, h, t, n, ps, last, g, y, p, c, _, _, _ => ⟨s, [], h, t, n, last, rfl, rfl, g, y, p, c, by simp⟩
  | a :: w, s, h, t, n, ps, last, g, y, p, c, hP, hnf, hlen => by
    obtain ⟨act, s1, qs, t1, ha, e1, ew, em, g1, y1⟩ := hyp_step g hks hN true y
    by_cases hab : About a k
    · have hla : IsLater a k := by
        rcases hab with h | ⟨fw, h⟩
        · exact h
        · exact absurd h (hnf a (by simp) fw)
      have hact : act = .later k := by rw [IsLater, ha] at hla; exact Res.ok.inj hla
      subst hact
      obtain ⟨c1, c2⟩ := c.1 hab
      obtain ⟨r1, r2, r3⟩ := p.recent g.small.keys (fun x hx => hP a (by simp) hab x hx) c1
      have hml := hlen a (by simp) hla
      have hid : idealA T mtu h a s.mem.length (.later k) = (remember { (Spec.Frag.recent T h a.now k).getD ⟨k, a.now, none, []⟩ with
          last := a.now, waiting := s.mem.length :: ((Spec.Frag.recent T h a.now k).getD ⟨k, a.now, none, []⟩).waiting } h, -1, []) := by
        simp only [idealA, Frag.ideal_frag r1, if_neg (show ¬ mtu < a.data.length by omega)]
        rfl
      rw [hid] at e1 ew g1
      cases ew
      obtain ⟨s', os, h', t', n', last', e2, l2, g2, y2, p2, c3, ho⟩ := run_waiting hks hN m w (last := some a.now) (ps := a.data :: ps) g1 y1 (by
        refine ⟨_, List.mem_cons_self .., r2, rfl, r1, ?_⟩
        rw [em]
        simp only [writes, List.getElem?_concat_length, writes_append r3, Res.ok_bind, Res.pure_eq, if_true]) c2
        (fun x hx => hP x (List.mem_cons_of_mem _ hx)) (fun x hx => hnf x (List.mem_cons_of_mem _ hx)) (fun x hx => hlen x (List.mem_cons_of_mem _ hx))
      refine ⟨s', _, h', t', n', last', run_cons e1 e2, by simp [l2], g2, y2, ?_, c3, ?_⟩
      · have : laters k (a :: w) = a.data :: laters k w := by
          unfold laters
          rw [List.filter_cons, if_pos (by simpa using ha)]
          rfl
        rw [this]
        simpa using p2
      · intro b o hb hbl
        rw [List.zip_cons_cons] at hb
        rcases List.mem_cons.1 hb with hb | hb
        · injection hb
        · exact ho b o hb hbl
    · have hnl : ¬ IsLater a k := fun h => hab (.inl h)
      obtain ⟨s', os, h', t', n', last', e2, l2, g2, y2, p2, c3, ho⟩ := run_waiting hks hN m w (last := last) (ps := ps) g1 y1 (by
        cases last with
        | none => exact ⟨p.1, fun d hd hk => p.2 d ((idealA_other ha hab d hk).1 hd) hk⟩
        | some l =>
          obtain ⟨d, hd, hk, hl, hv, hw⟩ := p
          exact ⟨d, (idealA_other ha hab d hk).2 hd, hk, hl, hv, by rw [em]; exact writes_append hw⟩) (c.2 hab)
        (fun x hx => hP x (List.mem_cons_of_mem _ hx)) (fun x hx => hnf x (List.mem_cons_of_mem _ hx)) (fun x hx => hlen x (List.mem_cons_of_mem _ hx))
      refine ⟨s', _, h', t', n', last', run_cons e1 e2, by simp [l2], g2, y2, ?_, c3, ?_⟩
      · have : laters k (a :: w) = laters k w := by
          unfold laters
          rw [List.filter_cons, if_neg (by simpa [IsLater] using hnl)]
        rw [this]
        exact p2
      · intro b o hb hbl
        rw [List.zip_cons_cons] at hb
        rcases List.mem_cons.1 hb with hb | hb
        · injection hb with h1 h2
          rw [h1] at hbl
          exact absurd hbl hnl
        · exact ho b o hb hbl

/-- The first fragment. -/
theorem first_step (hks : ks.length ≤ MB) (hN : MB ≤ N) {k : Key} {P : Nat → Prop} {fw : Int} {f : Arrival} {m : List Arrival} {s : St} {h : List Dgram} {t n : Nat} {ps : List Packet} {last : Option Nat}
    (g : Good N MB MF T mtu ks s h t n) (y : Hyp MF ks t n (f :: m)) (p : Pend P k h s.mem ps last) (c : CloseR T k last (f :: m)) (hP : ∀ x, P x → x + T < f.now) (hf : IsFirst f k fw) :
    ∃ s' h' t' n', handle true s f = .ok (s', fw, ps) ∧ Good N MB MF T mtu ks s' h' t' n' ∧ Hyp MF ks t' n' m ∧ (∃ d ∈ h', d.key = k ∧ d.last = f.now ∧ d.value = some fw ∧ d.waiting = []) ∧
      CloseR T k (some f.now) m := by
  obtain ⟨act, s1, qs, t1, ha, e1, ew, em, g1, y1⟩ := hyp_step g hks hN true y
  have hab : About f k := .inr ⟨fw, hf⟩
  have hact : act = .first k fw := by rw [IsFirst, ha] at hf; exact Res.ok.inj hf
  subst hact
  obtain ⟨c1, c2⟩ := c.1 hab
  obtain ⟨r1, r2, r3⟩ := p.recent g.small.keys hP c1
  have hid : idealA T mtu h f s.mem.length (.first k fw) = (remember ⟨k, f.now, some fw, []⟩ h, fw, ((Spec.Frag.recent T h f.now k).getD ⟨k, f.now, none, []⟩).waiting) := by
    simp only [idealA, Frag.ideal_first r1]
    rfl
  rw [hid] at e1 ew g1
  dsimp only at ew
  rw [em, writes_append r3] at ew
  cases ew
  exact ⟨s1, _, t1, _, e1, g1, y1, ⟨_, List.mem_cons_self .., rfl, rfl, rfl, rfl⟩, c2⟩

/-- After the first fragment. -/
theorem run_after (hks : ks.length ≤ MB) (hN : MB ≤ N) {k : Key} {fw : Int} : ∀ (l : List Arrival) {s : St} {h : List Dgram} {t n last : Nat}, Good N MB MF T mtu ks s h t n → Hyp MF ks t n l →
    (∃ d ∈ h, d.key = k ∧ d.last = last ∧ d.value = some fw ∧ d.waiting = []) → CloseR T k (some last) l →
    ∃ s' os, run true s l = .ok (s', os) ∧ os.length = l.length ∧ ∀ a o, (a, o) ∈ l.zip os → (IsLater a k → o = (fw, [])) ∧ (∀ fw', IsFirst a k fw' → o = (-1, []))
  | [], s, h, t, n, last, g, y, p, c => ⟨s, [], rfl, rfl, by simp⟩
  | a :: l, s, h, t, n, last, g, y, p, c => by
    obtain ⟨act, s1, qs, t1, ha, e1, ew, em, g1, y1⟩ := hyp_step g hks hN true y
    obtain ⟨d, hd, hk, hl, hv, hw⟩ := p
    by_cases hab : About a k
    · obtain ⟨c1, c2⟩ := c.1 hab
      have hr := Frag.recent_of_mem (T := T) g.small.keys hd (now := a.now) (by rw [hl]; exact c1 _ rfl)
      rw [hk] at hr
      rcases hab with hla | ⟨fw', hfi⟩
      · have hact : act = .later k := by rw [IsLater, ha] at hla; exact Res.ok.inj hla
        subst hact
        have hid : idealA T mtu h a s.mem.length (.later k) = (remember { d with last := a.now } h, fw, []) := by
          simp only [idealA, ideal, hr, Option.getD_some, hv, if_true]
        rw [hid] at e1 ew g1
        cases ew
        obtain ⟨s', os, e2, l2, ho⟩ := run_after hks hN l g1 y1 ⟨_, List.mem_cons_self .., hk, rfl, hv, hw⟩ c2
        refine ⟨s', _, run_cons e1 e2, by simp [l2], ?_⟩
        intro b o hb
        rw [List.zip_cons_cons] at hb
        rcases List.mem_cons.1 hb with hb | hb
        · injection hb with h1 h2
          rw [h1, h2]
          refine ⟨fun _ => rfl, ?_⟩
          intro fw' hf'
          rw [IsFirst, ha] at hf'
          cases hf'
        · exact ho b o hb
      · have hact : act = .first k fw' := by rw [IsFirst, ha] at hfi; exact Res.ok.inj hfi
        subst hact
        have hid : idealA T mtu h a s.mem.length (.first k fw') = (remember { d with last := a.now } h, -1, []) := by
          simp only [idealA, ideal, hr, hv]
          rfl
        rw [hid] at e1 ew g1
        cases ew
        obtain ⟨s', os, e2, l2, ho⟩ := run_after hks hN l g1 y1 ⟨_, List.mem_cons_self .., hk, rfl, hv, hw⟩ c2
        refine ⟨s', _, run_cons e1 e2, by simp [l2], ?_⟩
        intro b o hb
        rw [List.zip_cons_cons] at hb
        rcases List.mem_cons.1 hb with hb | hb
        · injection hb with h1 h2
          rw [h1, h2]
          refine ⟨?_, fun _ _ => rfl⟩
          intro hl'
          rw [IsLater, ha] at hl'
          cases hl'
        · exact ho b o hb
    · obtain ⟨s', os, e2, l2, ho⟩ := run_after hks hN l g1 y1 ⟨d, (idealA_other ha hab d hk).2 hd, hk, hl, hv, hw⟩ (c.2 hab)
      refine ⟨s', _, run_cons e1 e2, by simp [l2], ?_⟩
      intro b o hb
      rw [List.zip_cons_cons] at hb
      rcases List.mem_cons.1 hb with hb | hb
      · injection hb with h1 h2
        rw [h1]
        exact ⟨fun h => absurd (.inl h) hab, fun fw' h => absurd (.inr ⟨fw', h⟩) hab⟩
      · exact ho b o hb

/-! ### What is written -/

theorem writes_none {mem : List Packet} : ∀ {ids : List Nat} {ps : List Packet}, writes false mem ids = .ok ps → ps = []
  | [], _, h => by cases h; rfl
  | i :: is, ps, h => by
    simp only [writes] at h
    cases hi : mem[i]? with
    | none => rw [hi] at h; cases h
    | some p =>
      rw [hi] at h
      dsimp only at h
      cases hw : writes false mem is with
      | ok qs =>
        rw [hw] at h
        cases h
        exact writes_none hw
      | die => rw [hw] at h; cases h
      | ub => rw [hw] at h; cases h
      | hang => rw [hw] at h; cases h

end Nfqlb.Tun
