import Verif.Proof.FragRuns
import Verif.Proof.Server

/-! The counters of the fragment table. -/

set_option autoImplicit false

namespace Nfqlb.Frag

open Nfqlb.Ct (Ct Ev Slot Quiet)
open Nfqlb.Spec.Frag
open Nfqlb.Server (bind_ok)

/-- The counters that do not change, and the one that goes with the free buckets. -/
structure Fr (ft ft' : Ft) : Prop where
  alloc : ft'.fragsAllocated = ft.fragsAllocated
  used : (ft'.bucketsUsed + ft'.bucketsFree) % 4294967296 = (ft.bucketsUsed + ft.bucketsFree) % 4294967296
  lt : ft.bucketsUsed < 4294967296 → ft'.bucketsUsed < 4294967296
  size : ft'.ct.size = ft.ct.size

theorem Fr.refl (ft : Ft) : Fr ft ft := ⟨rfl, rfl, id, rfl⟩

theorem Fr.trans {a b c : Ft} (h : Fr a b) (k : Fr b c) : Fr a c := ⟨k.alloc.trans h.alloc, k.used.trans h.used, fun x => k.lt (h.lt x), k.size.trans h.size⟩

theorem setObj_fr (ft : Ft) (v : Nat) (o : Obj) : Fr ft (setObj ft v o) := ⟨rfl, rfl, id, rfl⟩

theorem discard_fr (ft : Ft) (l : List Nat) : Fr ft (discard ft l) := ⟨rfl, rfl, id, rfl⟩

theorem lock_fr (ft : Ft) (v : Nat) : Fr ft (lock ft v) := setObj_fr ft v _

theorem unlock_fr (ft : Ft) (v : Nat) : Fr ft (unlock ft v) := by
  unfold unlock
  dsimp only
  split
  · exact ⟨rfl, rfl, id, rfl⟩
  · exact setObj_fr ft v _

theorem event_fr (ft : Ft) (e : Ev) (h : e ≠ .alloc true ∨ 0 < ft.bucketsFree) : Fr ft (onEvent ft e) := by
  cases e with
  | free v w => exact unlock_fr ft v
  | lock v => exact lock_fr ft v
  | freeBucket =>
    refine ⟨rfl, ?_, fun _ => ?_, rfl⟩
    · show (u32 (ft.bucketsUsed + 4294967295) + (ft.bucketsFree + 1)) % 4294967296 = _
      unfold u32; omega
    · show u32 _ < _
      unfold u32; omega
  | alloc ok =>
    cases ok with
    | false => exact Fr.refl ft
    | true =>
      have h : 0 < ft.bucketsFree := by
        rcases h with h | h
        · exact absurd rfl h
        · exact h
      refine ⟨rfl, ?_, fun _ => ?_, rfl⟩
      · show (u32 (ft.bucketsUsed + 1) + (ft.bucketsFree - 1)) % 4294967296 = _
        unfold u32; omega
      · show u32 _ < _
        unfold u32; omega

theorem events_fr : ∀ (evs : List Ev) (ft : Ft), (.alloc true ∉ evs) → Fr ft (onEvents ft evs)
  | [], ft, _ => Fr.refl ft
  | e :: es, ft, h => by
    rw [List.mem_cons, not_or] at h
    exact (event_fr ft e (.inl fun k => h.1 k.symm)).trans (events_fr es _ h.2)

theorem quiet_no {ev : List Ev} (h : Quiet ev) : Ev.alloc true ∉ ev := by
  intro hm
  rcases h _ hm with h | ⟨_, _, h⟩ <;> cases h

theorem setCt_fr (ft : Ft) (ct : Ct) (h : ct.size = ft.ct.size) : Fr ft { ft with ct := ct } := ⟨rfl, rfl, id, h⟩

theorem lookup_size {ct ct' : Ct} {now : Nat} {k : Key} {v : Nat} {ev : List Ev} (h : Ct.lookup ct now k = .ok (ct', v, ev)) : ct'.size = ct.size := by
  simp only [Ct.lookup] at h
  obtain ⟨b, _, h⟩ := bind_ok h
  split at h
  · cases h; rfl
  · cases h; rfl

theorem insert_size {ct ct' : Ct} {now : Nat} {k : Key} {ttl data : Nat} {ok : Bool} {r : Int} {ev : List Ev} (h : Ct.insertTTL ct now k ttl data ok = .ok (ct', r, ev)) : ct'.size = ct.size := by
  simp only [Ct.insertTTL] at h
  split at h
  · cases h; rfl
  obtain ⟨b, _, h⟩ := bind_ok h
  split at h
  · cases h; rfl
  split at h
  · cases h
    simp only [Ct.setBucket]
    split <;> rfl
  split at h
  · cases h; rfl
  · cases h; rfl

theorem remove_size {ct ct' : Ct} {now : Nat} {k : Key} {ev : List Ev} (h : Ct.remove ct now k = .ok (ct', ev)) : ct'.size = ct.size := by
  simp only [Ct.remove] at h
  obtain ⟨b, _, h⟩ := bind_ok h
  split at h
  · cases h; rfl
  · cases h; rfl

theorem ctLookup_fr {ft ft' : Ft} {now v : Nat} {k : Key} (h : ctLookup ft now k = .ok (ft', v)) : Fr ft ft' := by
  simp only [ctLookup] at h
  obtain ⟨⟨ct, w, ev⟩, h1, h⟩ := bind_ok h
  cases h
  refine (setCt_fr ft ct (lookup_size h1)).trans (events_fr _ _ ?_)
  obtain ⟨_, ev0, hq, h2⟩ := Ct.lookup_shape h1
  rcases h2 with ⟨_, rfl⟩ | ⟨_, rfl⟩
  · exact quiet_no hq
  · rw [List.mem_append, not_or]
    exact ⟨quiet_no hq, by simp⟩

theorem ctRemove_fr {ft ft' : Ft} {now : Nat} {k : Key} (h : ctRemove ft now k = .ok ft') : Fr ft ft' := by
  simp only [ctRemove] at h
  obtain ⟨⟨ct, ev⟩, h1, h⟩ := bind_ok h
  cases h
  exact (setCt_fr ft ct (remove_size h1)).trans (events_fr _ _ (quiet_no (Ct.remove_shape h1).2))

/-- The free buckets after events that take none. -/
theorem events_free : ∀ (evs : List Ev) (ft : Ft), .alloc true ∉ evs → (onEvents ft evs).bucketsFree = ft.bucketsFree + evs.count .freeBucket
  | [], ft, _ => rfl
  | e :: es, ft, h => by
    rw [List.mem_cons, not_or] at h
    have ih := events_free es (onEvent ft e) h.2
    have e1 : onEvents ft (e :: es) = onEvents (onEvent ft e) es := rfl
    rw [e1, ih]
    cases e with
    | free v w =>
      have : (onEvent ft (.free v w)).bucketsFree = ft.bucketsFree := (unlock_released ft v).2
      rw [this]; simp
    | lock v =>
      have : (onEvent ft (.lock v)).bucketsFree = ft.bucketsFree := rfl
      rw [this]; simp
    | freeBucket =>
      have : (onEvent ft .freeBucket).bucketsFree = ft.bucketsFree + 1 := rfl
      rw [this]; simp; omega
    | alloc ok =>
      cases ok with
      | false =>
        have : (onEvent ft (.alloc false)).bucketsFree = ft.bucketsFree := rfl
        rw [this]; simp
      | true => exact absurd rfl h.1

theorem ctInsert_fr {ft ft' : Ft} {now v : Nat} {k : Key} {r : Int} (hv : v ≠ 0) (h : ctInsert ft now k v = .ok (ft', r)) : Fr ft ft' := by
  simp only [ctInsert, bucketRoom] at h
  obtain ⟨room, h1, h⟩ := bind_ok h
  obtain ⟨⟨ct, rc, ev⟩, h2, h⟩ := bind_ok h
  obtain ⟨b, hb, h1⟩ := bind_ok h1
  cases h
  cases h1
  have hs := (Ct.insert_shape hv hb h2).2
  have hq := Ct.prepare_quiet b now
  refine (setCt_fr ft ct (insert_size h2)).trans ?_
  rcases hs with hs | ⟨ho, hs⟩ | ⟨ho, hs⟩
  · rw [hs]
    exact events_fr _ _ (quiet_no hq)
  · rw [hs, onEvents_append]
    refine (events_fr _ _ (quiet_no hq)).trans ?_
    refine event_fr (onEvents { ft with ct := ct } (Ct.prepare b now).2.1) (.alloc true) (.inr ?_)
    rw [events_free _ _ (quiet_no hq)]
    simpa using ho
  · rw [hs]
    refine events_fr _ _ ?_
    rw [List.mem_append, not_or]
    exact ⟨quiet_no hq, by simp⟩

/-- The objects that can be taken are not NULL. -/
def FreeNZ (ft : Ft) : Prop := 0 ∉ ft.freeObjs

theorem fragDataLookup_fr {ft ft' : Ft} {now v : Nat} {k : Key} {nok : Bool} (hz : ∀ ft1 v1, ctLookup ft now k = .ok (ft1, v1) → FreeNZ ft1) (h : fragDataLookup ft now k nok = .ok (ft', v)) : Fr ft ft' := by
  simp only [fragDataLookup] at h
  obtain ⟨⟨ft1, v1⟩, h1, h⟩ := bind_ok h
  dsimp only at h
  have f1 := ctLookup_fr h1
  split at h
  · cases h; exact f1
  split at h
  · cases h; exact f1
  rename_i f rest hf
  obtain ⟨⟨ft2, rc⟩, h2, h⟩ := bind_ok h
  dsimp only at h
  have hf0 : f ≠ 0 := by
    intro h0
    have := hz _ _ h1
    unfold FreeNZ at this
    rw [hf] at this
    exact this (by rw [h0]; exact List.mem_cons_self)
  have f2 : Fr ft ft2 := (f1.trans ((⟨rfl, rfl, id, rfl⟩ : Fr ft1 { ft1 with freeObjs := rest }).trans (setObj_fr _ _ _))).trans (ctInsert_fr hf0 h2)
  split at h
  · cases h
    exact f2.trans (lock_fr _ _)
  split at h
  · exact (f2.trans (unlock_fr _ _)).trans (ctLookup_fr h)
  · cases h
    exact f2.trans (unlock_fr _ _)

theorem reassemble_fr {ft ft' : Ft} {now f : Nat} {k : Key} {rc : Int} (h : reassemble ft now k f rc = .ok ft') : Fr ft ft' := by
  unfold reassemble at h
  split at h
  · split at h
    · split at h
      · obtain ⟨ft1, h1, h⟩ := bind_ok h
        cases h
        exact (ctRemove_fr h1).trans ⟨rfl, rfl, id, rfl⟩
      · cases h; exact Fr.refl _
    · cases h; exact setObj_fr _ _ _
  · cases h; exact Fr.refl _

variable {N MB MF T : Nat}

theorem lookup_freeNZ {ft : Ft} {t : Nat} (i : FInv N MB MF T ft t 0) {now : Nat} (hle : t ≤ now) (k : Key) : ∀ ft1 v1, ctLookup ft now k = .ok (ft1, v1) → FreeNZ ft1 := by
  intro ft1 v1 h1
  obtain ⟨ft2, v2, h2, o, _⟩ := ctLookup_spec i hle k
  rw [h2] at h1
  cases h1
  intro h0
  exact (o.inv.free_fresh h0).2 rfl

/-- What an operation does to the counters. -/
structure Counts (ft ft' : Ft) (op : Op) (out : Out) : Prop where
  alloc : ft'.fragsAllocated % 4294967296 = (ft.fragsAllocated + (accepted (op, out)).length) % 4294967296
  allocLt : ft.fragsAllocated < 4294967296 → ft'.fragsAllocated < 4294967296
  used : (ft'.bucketsUsed + ft'.bucketsFree) % 4294967296 = (ft.bucketsUsed + ft.bucketsFree) % 4294967296
  lt : ft.bucketsUsed < 4294967296 → ft'.bucketsUsed < 4294967296
  size : ft'.ct.size = ft.ct.size

theorem Fr.counts {ft ft' : Ft} {op : Op} {out : Out} (h : Fr ft ft') (ha : accepted (op, out) = []) : Counts ft ft' op out :=
  ⟨by rw [h.alloc, ha]; rfl, by rw [h.alloc]; exact id, h.used, h.lt, h.size⟩

theorem step_counts {ft ft' : Ft} {t : Nat} {op : Op} {out : Out} (i : FInv N MB MF T ft t 0) (hle : t ≤ timeOf op) (h : step ft op = .ok (ft', out)) : Counts ft ft' op out := by
  cases op with
  | first now k v nok =>
    simp only [step, handleFirstFragment, fragInsertFirst] at h
    obtain ⟨⟨ft1, rc, inj⟩, h1, h⟩ := bind_ok h
    obtain ⟨⟨ft2, rc2, st⟩, h2, h1⟩ := bind_ok h1
    obtain ⟨⟨ft3, f⟩, h3, h2⟩ := bind_ok h2
    have f3 := fragDataLookup_fr (lookup_freeNZ i hle k) h3
    cases h
    cases h1
    have f2 : Fr ft ft2 := by
      dsimp only at h2
      split at h2
      · cases h2; exact f3
      split at h2
      · cases h2; exact f3.trans (unlock_fr _ _)
      · cases h2; exact (f3.trans (setObj_fr _ _ _)).trans (unlock_fr _ _)
    have f1 : Fr ft { ft2 with fragsFree := ft2.fragsFree + st.length } := f2.trans ⟨rfl, rfl, id, rfl⟩
    exact f1.counts rfl
  | get now k =>
    simp only [step, fragGetValue] at h
    obtain ⟨⟨ft1, rc, inj⟩, h1, h⟩ := bind_ok h
    obtain ⟨⟨ft2, f⟩, h2, h1⟩ := bind_ok h1
    have f2 := ctLookup_fr h2
    cases h
    have : Fr ft ft1 := by
      dsimp only at h1
      split at h1
      · cases h1; exact f2
      split at h1
      · cases h1; exact f2.trans (unlock_fr _ _)
      · cases h1; exact f2.trans (unlock_fr _ _)
    exact this.counts rfl
  | stats now =>
    simp only [step] at h
    cases h
    refine Fr.counts ?_ rfl
    unfold fragGetStats
    dsimp only
    exact (setCt_fr ft (Ct.ctStats ft.ct now).1 rfl).trans (events_fr _ _ (quiet_no (Ct.stats_shape ft.ct now).2))
  | frag now k id len nok rc =>
    simp only [step, fragGetValueOrStore] at h
    obtain ⟨⟨ft1, rc1, val⟩, h1, h⟩ := bind_ok h
    cases h
    obtain ⟨⟨ft2, f⟩, h2, h1⟩ := bind_ok h1
    have f2 := fragDataLookup_fr (lookup_freeNZ i hle k) h2
    dsimp only at h1
    split at h1
    · cases h1; exact f2.counts rfl
    obtain ⟨ft3, h3, h1⟩ := bind_ok h1
    have f3 := f2.trans (reassemble_fr h3)
    split at h1
    · cases h1; exact (f3.trans (unlock_fr _ _)).counts rfl
    · cases h1; exact (f3.trans (unlock_fr _ _)).counts rfl
    split at h1
    · cases h1; exact (f3.trans (unlock_fr _ _)).counts rfl
    split at h1
    · cases h1; exact (((f3.trans (setObj_fr _ _ _)).trans (unlock_fr _ _)).trans (discard_fr _ _)).counts rfl
    · cases h1
      have f4 := unlock_fr { setObj { ft3 with fragsFree := ft3.fragsFree - 1 } f { ({ ft3 with fragsFree := ft3.fragsFree - 1 } : Ft).objs f with stored := id :: (({ ft3 with fragsFree := ft3.fragsFree - 1 } : Ft).objs f).stored } with fragsAllocated := u32 (ft3.fragsAllocated + 1) } f
      have ea := f4.alloc
      have ea' : ∀ x : Nat, x = u32 (ft3.fragsAllocated + 1) → x % 4294967296 = (ft.fragsAllocated + 1) % 4294967296 := by
        intro x hx
        rw [hx, f3.alloc]
        unfold u32; omega
      refine ⟨ea' _ ea, fun _ => ?_, f4.used.trans f3.used, fun h => f4.lt (f3.lt h), f4.size.trans f3.size⟩
      refine Nat.lt_of_le_of_lt (Nat.le_of_eq ea) ?_
      show u32 _ < _
      unfold u32; omega

theorem run_counts : ∀ (ops : List Op) {ft ft' : Ft} {t : Nat} {outs : List Out}, FInv N MB MF T ft t 0 → Timed t ops → run ft ops = .ok (ft', outs) →
    ft'.fragsAllocated % 4294967296 = (ft.fragsAllocated + ((ops.zip outs).flatMap accepted).length) % 4294967296 ∧ (ft.fragsAllocated < 4294967296 → ft'.fragsAllocated < 4294967296) ∧
    (ft'.bucketsUsed + ft'.bucketsFree) % 4294967296 = (ft.bucketsUsed + ft.bucketsFree) % 4294967296 ∧ (ft.bucketsUsed < 4294967296 → ft'.bucketsUsed < 4294967296) ∧ ft'.ct.size = ft.ct.size
  | [], ft, ft', t, outs, i, _, h => by
    cases h
    exact ⟨rfl, id, rfl, id, rfl⟩
  | o :: os, ft, ft', t, outs, i, ht, h => by
    obtain ⟨h1, h2, h3⟩ := ht
    obtain ⟨ft1, out, hs, st⟩ := step_all i o h1
    have c := step_counts i h1 hs
    simp only [run, hs, Res.ok_bind, Res.pure_eq] at h
    obtain ⟨⟨ft2, rs⟩, h4, h⟩ := bind_ok h
    cases h
    obtain ⟨a1, a2, a3, a4, a5⟩ := run_counts os st.inv h3 h4
    have ca := c.alloc
    refine ⟨?_, fun h => a2 (c.allocLt h), a3.trans c.used, fun h => a4 (c.lt h), a5.trans c.size⟩
    simp only [List.zip_cons_cons, List.flatMap_cons, List.length_append]
    omega

end Nfqlb.Frag
