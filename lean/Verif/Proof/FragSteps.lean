import Verif.Proof.FragOps
import Verif.Spec.FragTable

/-! The operations of the fragment table, seen per datagram. -/

set_option autoImplicit false

namespace Nfqlb.Frag

open Nfqlb.Ct (Ct Ev Slot vals fv Quiet NZ liveT TInv chains TEff)
open Nfqlb.Spec (Stored)
open Nfqlb.Spec.Frag

variable {N MB MF T : Nat}

/-- What is known about a datagram. -/
structure Entry where
  last : Nat
  st : FState
  value : Int
  stored : List Nat

def ent (s : Slot) (o : Obj) : Entry := ⟨s.refered, o.state, o.value, o.stored⟩

def view (ft : Ft) (t : Nat) (k : Key) : Option Entry := (liveT ft.ct t k).map (fun s => ent s (ft.objs s.data))

/-- The entry that an operation works on: the one found, or a new one. -/
def Base (now : Nat) (o : Option Entry) (e : Entry) : Prop := o = some e ∨ (o = none ∧ e.st = .storing ∧ e.stored = [] ∧ e.last = now)

inductive KeyStep (mtu : Nat) : Op → Option Entry → Option Entry → Out → Prop where
  | firstFail {now k v nok} : KeyStep mtu (.first now k v nok) none none ⟨-1, none, []⟩
  | firstOk {now k v nok o e} : Base now o e → e.st = .storing →
      KeyStep mtu (.first now k v nok) o (some ⟨now, .hashValid, v, []⟩) ⟨0, none, e.stored⟩
  | firstRefuse {now k v nok e} : e.st ≠ .storing → KeyStep mtu (.first now k v nok) (some e) (some { e with last := now }) ⟨-1, none, []⟩
  | getNone {now k} : KeyStep mtu (.get now k) none none ⟨-1, none, []⟩
  | getOk {now k e} : e.st = .hashValid → KeyStep mtu (.get now k) (some e) (some { e with last := now }) ⟨0, some e.value, []⟩
  | getRefuse {now k e} : e.st ≠ .hashValid → KeyStep mtu (.get now k) (some e) (some { e with last := now }) ⟨-1, none, []⟩
  | fragFail {now k id len nok rc} : KeyStep mtu (.frag now k id len nok rc) none none ⟨-1, none, []⟩
  | fragOk {now k id len nok rc e} : e.st = .hashValid →
      KeyStep mtu (.frag now k id len nok rc) (some e) (some { e with last := now }) ⟨0, some e.value, []⟩
  | fragDone {now k id len nok e} : e.st = .hashValid → KeyStep mtu (.frag now k id len nok 0) (some e) none ⟨0, some e.value, []⟩
  | fragPoisoned {now k id len nok rc e} : e.st = .poisoned →
      KeyStep mtu (.frag now k id len nok rc) (some e) (some { e with last := now }) ⟨-1, none, []⟩
  | fragBig {now k id len nok rc o e} : Base now o e → e.st = .storing → mtu < len →
      KeyStep mtu (.frag now k id len nok rc) o (some { e with last := now }) ⟨-1, none, []⟩
  | fragFull {now k id len nok rc o e} : Base now o e → e.st = .storing → len ≤ mtu →
      KeyStep mtu (.frag now k id len nok rc) o (some ⟨now, .poisoned, e.value, []⟩) ⟨-1, none, []⟩
  | fragStore {now k id len nok rc o e} : Base now o e → e.st = .storing → len ≤ mtu →
      KeyStep mtu (.frag now k id len nok rc) o (some ⟨now, .storing, e.value, id :: e.stored⟩) ⟨1, none, []⟩

theorem KeyStep.cast {mtu : Nat} {op : Op} {a b b' : Option Entry} {r : Out} (h : b = b') (hk : KeyStep mtu op a b' r) : KeyStep mtu op a b r := h ▸ hk

/-- The entries for other datagrams were there before, and the entry for `k` is not old. -/
def Held (ft ft' : Ft) (now : Nat) (k : Key) : Prop :=
  (∀ s, Stored ft'.ct s → s.key ≠ k → Stored ft.ct s ∧ ent s (ft'.objs s.data) = ent s (ft.objs s.data)) ∧
  (∀ s, Stored ft'.ct s → s.key = k → view ft' now k = some (ent s (ft'.objs s.data)))

/-- The operations that make an entry. -/
def makes : Op → Bool
  | .first _ _ _ _ => true
  | .frag _ _ _ _ _ _ => true
  | _ => false

/-- What is held after an operation, and when something is refused. -/
structure More (N MB MF : Nat) (ft ft' : Ft) (op : Op) : Prop where
  held : ∀ k, keyOf op = some k → Held ft ft' (timeOf op) k
  clean : keyOf op = none → ∀ s, Stored ft'.ct s → Stored ft.ct s ∧ ent s (ft'.objs s.data) = ent s (ft.objs s.data) ∧ Ct.stale s (timeOf op) = false
  room : ∀ k, keyOf op = some k → makes op = true → view ft (timeOf op) k = none → view ft' (timeOf op) k = none →
    MB ≤ (vals ft'.ct).length ∨ N ≤ (vals ft'.ct).length
  full : ∀ k e', keyOf op = some k → view ft' (timeOf op) k = some e' → e'.st = .poisoned → (∀ e, view ft (timeOf op) k = some e → e.st ≠ .poisoned) →
    MF ≤ (storedAll ft').length + (((view ft (timeOf op) k).map Entry.stored).getD []).length

theorem More.ofSome {ft ft' : Ft} {op : Op} {k : Key} {e' : Entry} (hk : keyOf op = some k) (hH : Held ft ft' (timeOf op) k) (hv : view ft' (timeOf op) k = some e')
    (hp : e'.st = .poisoned → ∃ e, view ft (timeOf op) k = some e ∧ e.st = .poisoned) : More N MB MF ft ft' op where
  held := by intro k' hk'; rw [hk] at hk'; injection hk' with hk'; subst hk'; exact hH
  clean := by intro h; rw [hk] at h; cases h
  room := by intro k' hk' _ _ h2; rw [hk] at hk'; injection hk' with hk'; subst hk'; rw [hv] at h2; cases h2
  full := by
    intro k' e2 hk' h2 h3 h4
    rw [hk] at hk'
    injection hk' with hk'
    subst hk'
    rw [hv] at h2
    injection h2 with h2
    subst h2
    obtain ⟨e, h5, h6⟩ := hp h3
    exact absurd h6 (h4 e h5)

theorem More.ofNone {ft ft' : Ft} {op : Op} {k : Key} (hk : keyOf op = some k) (hH : Held ft ft' (timeOf op) k) (hv : view ft' (timeOf op) k = none)
    (hr : makes op = true → view ft (timeOf op) k = none → MB ≤ (vals ft'.ct).length ∨ N ≤ (vals ft'.ct).length) : More N MB MF ft ft' op where
  held := by intro k' hk'; rw [hk] at hk'; injection hk' with hk'; subst hk'; exact hH
  clean := by intro h; rw [hk] at h; cases h
  room := by intro k' hk' h1 h2 _; rw [hk] at hk'; injection hk' with hk'; subst hk'; exact hr h1 h2
  full := by
    intro k' e2 hk' h2 h3 h4
    rw [hk] at hk'
    injection hk' with hk'
    subst hk'
    rw [hv] at h2
    cases h2

/-- What an operation does. -/
structure Step (N MB MF T : Nat) (ft ft' : Ft) (op : Op) (out : Out) : Prop where
  inv : FInv N MB MF T ft' (timeOf op) 0
  same : Same ft ft'
  other : ∀ k, keyOf op ≠ some k → view ft' (timeOf op) k = view ft (timeOf op) k
  self : ∀ k, keyOf op = some k → KeyStep ft.mtu op (view ft (timeOf op) k) (view ft' (timeOf op) k) out
  acc : (out.injected ++ ft'.gone ++ storedAll ft').Perm ((accepted (op, out)).map Prod.snd ++ ft.gone ++ storedAll ft)
  more : More N MB MF ft ft' op

theorem storedAll_length (ft : Ft) : (storedAll ft).length = sizeOf ft (vals ft.ct) := by
  unfold storedAll sizeOf
  rw [List.length_flatMap]

theorem data_ne {ct : Ct} (hn : (vals ct).Nodup) {now : Nat} {k k' : Key} (hk : k' ≠ k) {s s' : Slot} (h : liveT ct now k = some s) (h' : liveT ct now k' = some s') :
    s'.data ≠ s.data := by
  intro he
  have h1 := Ct.stored_of_live h
  have h2 := Ct.stored_of_live h'
  have := Ct.slot_inj hn h2.1 h1.1 he
  subst this
  exact hk (h2.2.1.symm.trans h1.2.1)

/-- Operations that end with an object in the table: the object was changed and the reference given up. -/
theorem finish {ft ft1 ft2 : Ft} {now v : Nat} {k : Key} {s : Slot} {o : Obj} (ok : Ok N MB MF T ft ft1 now k v) (hl : liveT ft1.ct now k = some s) (hsv : s.data = v)
    (hct : ft2.ct = ft1.ct) (hobj : ∀ w, ft2.objs w = if w = v then o else ft1.objs w) (hfree : ft2.freeObjs = ft1.freeObjs)
    (hb : ft2.bucketsFree = ft1.bucketsFree) (href : o.ref = 2)
    (hf : ft2.fragsFree + o.stored.length = ft1.fragsFree + (ft1.objs v).stored.length) (hd : ft2.fragsDiscarded = u32 ft2.gone.length) (hsame : Same ft1 ft2) :
    FInv N MB MF T (unlock ft2 v) now 0 ∧ Same ft (unlock ft2 v) ∧ (∀ k', k' ≠ k → view (unlock ft2 v) now k' = view ft now k') ∧
      view (unlock ft2 v) now k = some (ent s o) ∧ (unlock ft2 v).gone = ft2.gone ∧
      (storedAll (unlock ft2 v) ++ (ft1.objs v).stored).Perm (o.stored ++ storedAll ft1) ∧ Held ft (unlock ft2 v) now k := by
  have hv1 : v ∈ vals ft1.ct := hsv ▸ live_mem hl
  obtain ⟨i2, p2⟩ := upd_inv (h' := v) ok.inv hv1 (.inl rfl) (.inl rfl) hct hobj hfree hb (by simp [href]) hf hd
  obtain ⟨i3, e3, p3⟩ := unlock_inv i2 (by rw [hct]; exact hv1)
  have hobj3 : ∀ w, (unlock ft2 v).objs w = if w = v then { o with ref := 1 } else ft1.objs w := by
    intro w
    rw [e3]
    simp only [setObj]
    by_cases hw : w = v
    · subst hw; simp [hobj]
    · simp [hw, hobj]
  have hct3 : (unlock ft2 v).ct = ft1.ct := by rw [e3]; exact hct
  refine ⟨i3, ?_, ?_, ?_, by rw [e3]; rfl, ?_, ?_, ?_⟩
  · rw [e3]; exact ok.same.trans ⟨hsame.mtu, hsame.reass⟩
  · intro k' hk
    unfold view
    rw [hct3, ok.other k' hk]
    cases hl' : liveT ft.ct now k' with
    | none => rfl
    | some s' =>
      have hl1 : liveT ft1.ct now k' = some s' := by rw [ok.other k' hk]; exact hl'
      have hne : s'.data ≠ v := hsv ▸ data_ne ok.inv.vnodup hk hl hl1
      simp only [Option.map_some]
      rw [hobj3, if_neg hne, ok.objs s'.data (live_mem hl1) hne]
  · unfold view
    rw [hct3, hl, Option.map_some, hobj3, if_pos hsv]
    rfl
  · exact (List.Perm.append p3 (List.Perm.refl _)).trans p2
  · intro s' hs' hk
    rw [hct3] at hs'
    have hl' := Ct.stored_of_live hl
    have hne : s'.data ≠ v := by
      intro he
      exact hk ((Ct.slot_inj ok.inv.vnodup hs' hl'.1 (he.trans hsv.symm)) ▸ hl'.2.1)
    refine ⟨ok.sub s' hs' hk, ?_⟩
    rw [hobj3, if_neg hne, ok.objs s'.data (Ct.mem_vals.2 ⟨s', hs', rfl⟩) hne]
  · intro s' hs' hk
    rw [hct3] at hs'
    unfold view
    rw [hct3, ok.own s' hs' hk]
    rfl

/-- Operations that do not find or make an object. -/
theorem finish0 {ft ft1 : Ft} {now : Nat} {k : Key} (ok : Ok N MB MF T ft ft1 now k 0) (hl : liveT ft.ct now k = none) (hl1 : liveT ft1.ct now k = none) :
    (∀ k', k' ≠ k → view ft1 now k' = view ft now k') ∧ view ft now k = none ∧ view ft1 now k = none ∧ Held ft ft1 now k := by
  refine ⟨?_, by simp [view, hl], by simp [view, hl1], ?_, ?_⟩
  rotate_left
  · intro s' hs' hk
    refine ⟨ok.sub s' hs' hk, ?_⟩
    have hm : s'.data ∈ vals ft1.ct := Ct.mem_vals.2 ⟨s', hs', rfl⟩
    rw [ok.objs s'.data hm (fun h0 => Ct.zero_notin_vals _ (h0 ▸ hm))]
  · intro s' hs' hk
    unfold view
    rw [ok.own s' hs' hk]
    rfl
  intro k' hk
  unfold view
  rw [ok.other k' hk]
  cases hl' : liveT ft.ct now k' with
  | none => rfl
  | some s' =>
    have hl2 : liveT ft1.ct now k' = some s' := by rw [ok.other k' hk]; exact hl'
    simp only [Option.map_some]
    rw [ok.objs s'.data (live_mem hl2) (fun h0 => Ct.zero_notin_vals _ (h0 ▸ live_mem hl2))]

/-- The result of a lookup, as a base for an operation. -/
theorem base_of {ft ft' : Ft} {now v : Nat} {k : Key} {T : Nat}
    (h : (∃ s, liveT ft.ct now k = some s ∧ s.data = v ∧ v ≠ 0 ∧ liveT ft'.ct now k = some { s with refered := now } ∧
          ft'.objs v = { ft.objs v with ref := 2 }) ∨
       (liveT ft.ct now k = none ∧ v ≠ 0 ∧ liveT ft'.ct now k = some { key := k, data := v, ttl := T, refered := now } ∧
          (ft'.objs v).state = .storing ∧ (ft'.objs v).stored = [])) :
    ∃ s e, liveT ft'.ct now k = some s ∧ s.data = v ∧ s.refered = now ∧ v ≠ 0 ∧ Base now (view ft now k) e ∧ (ft'.objs v).state = e.st ∧ (ft'.objs v).value = e.value ∧
      (ft'.objs v).stored = e.stored ∧ (e.st ≠ .storing → view ft now k = some e) := by
  rcases h with ⟨s, h1, h2, h3, h4, h5⟩ | ⟨h1, h2, h3, h4, h5⟩
  · refine ⟨_, ent s (ft.objs v), h4, h2, rfl, h3, .inl ?_, by rw [h5]; rfl, by rw [h5]; rfl, by rw [h5]; rfl, fun _ => ?_⟩
    · unfold view; rw [h1, Option.map_some, h2]
    · unfold view; rw [h1, Option.map_some, h2]
  · refine ⟨_, ⟨now, .storing, (ft'.objs v).value, []⟩, h3, rfl, rfl, h2, .inr ⟨by simp [view, h1], rfl, rfl, rfl⟩, h4, rfl, h5, fun h => absurd rfl h⟩

theorem step_get {ft : Ft} {t now : Nat} (i : FInv N MB MF T ft t 0) (hle : t ≤ now) (k : Key) :
    ∃ ft' out, step ft (.get now k) = .ok (ft', out) ∧ Step N MB MF T ft ft' (.get now k) out := by
  obtain ⟨ft1, v, h1, ok, h2⟩ := ctLookup_spec i hle k
  rcases h2 with h2 | ⟨a1, a2, a3⟩
  · obtain ⟨s, e, b1, b2, b3, b4, b5, b6, b7, b8, b9⟩ := base_of (T := T) (.inl h2)
    have hview : view ft now k = some e := by
      rcases b5 with h | ⟨h, _⟩
      · exact h
      · obtain ⟨s', g1, _⟩ := h2
        simp [view, g1] at h
    have hr : (ft1.objs v).ref = 2 := by
      have := ok.inv.ref v (b2 ▸ live_mem b1)
      rw [if_pos rfl] at this
      exact this
    obtain ⟨c1, c2, c3, c4, c5, c6, c7⟩ := finish (o := ft1.objs v) (ft2 := ft1) ok b1 b2 rfl (by intro w; by_cases hw : w = v <;> simp [hw]) rfl rfl hr rfl ok.inv.disc (Same.refl _)
    have hent : ent s (ft1.objs v) = { e with last := now } := by
      unfold ent; rw [b3, b6, b7, b8]
    rw [hent] at c4
    have hacc : ((unlock ft1 v).gone ++ storedAll (unlock ft1 v)).Perm (ft.gone ++ storedAll ft) := by
      rw [c5]
      exact (List.Perm.append (List.Perm.refl _) (perm_cancel c6)).trans ok.acc
    have hself : ∀ (r : Out), KeyStep ft.mtu (.get now k) (some e) (some { e with last := now }) r →
        ∀ k', keyOf (.get now k) = some k' → KeyStep ft.mtu (.get now k) (view ft now k') (view (unlock ft1 v) now k') r := by
      rintro r hr k' ⟨⟩
      rw [hview, c4]
      exact hr
    have hmore : More N MB MF ft (unlock ft1 v) (.get now k) := More.ofSome rfl c7 c4 (fun h => ⟨e, hview, h⟩)
    simp only [step, fragGetValue, h1, Res.ok_bind, Res.pure_eq, if_neg b4]
    by_cases hst : (ft1.objs v).state = .hashValid
    · rw [if_pos hst]
      simp only [Res.ok_bind]
      refine ⟨_, _, rfl, c1, c2, fun k' hk => c3 k' (fun h => hk (by rw [h]; rfl)), ?_, by simpa [accepted] using hacc, hmore⟩
      apply hself
      rw [b7]
      exact .getOk (b6 ▸ hst)
    · rw [if_neg hst]
      simp only [Res.ok_bind]
      refine ⟨_, _, rfl, c1, c2, fun k' hk => c3 k' (fun h => hk (by rw [h]; rfl)), ?_, by simpa [accepted] using hacc, hmore⟩
      apply hself
      exact .getRefuse (b6 ▸ hst)
  · subst a2
    obtain ⟨c1, c2, c3, c7⟩ := finish0 ok a1 a3
    simp only [step, fragGetValue, h1, Res.ok_bind, Res.pure_eq, if_true]
    refine ⟨_, _, rfl, ok.inv, ok.same, fun k' hk => c1 k' (fun h => hk (by rw [h]; rfl)), ?_, by simpa [accepted] using ok.acc, More.ofNone rfl c7 c3 (fun h => by cases h)⟩
    rintro k' ⟨⟩
    rw [show timeOf (.get now k) = now from rfl, c2, c3]
    exact .getNone

theorem acc_lemma {inj G' S' acc G0 S0 O o G1 S1 dsc : List Nat} (h1 : (S' ++ O).Perm (o ++ S1)) (h2 : G' = dsc ++ G1) (h3 : (G1 ++ S1).Perm (G0 ++ S0))
    (h4 : (inj ++ dsc ++ o).Perm (acc ++ O)) : (inj ++ G' ++ S').Perm (acc ++ G0 ++ S0) := by
  subst h2
  rw [List.perm_iff_count] at h1 h3 h4 ⊢
  intro x
  have e1 := h1 x
  have e3 := h3 x
  have e4 := h4 x
  simp only [List.count_append] at e1 e3 e4 ⊢
  omega

theorem unlock_frags {ft : Ft} {v n : Nat} (h : (ft.objs v).ref = 2) :
    { unlock ft v with fragsFree := (unlock ft v).fragsFree + n } = unlock { ft with fragsFree := ft.fragsFree + n } v := by
  simp [unlock, setObj, h]

theorem unlock_discard {ft : Ft} {v : Nat} {l : List Nat} (h : (ft.objs v).ref = 2) : discard (unlock ft v) l = unlock (discard ft l) v := by
  simp [unlock, setObj, h, discard]

theorem step_first {ft : Ft} {t now : Nat} (i : FInv N MB MF T ft t 0) (hle : t ≤ now) (k : Key) (val : Int) (nok : Bool) :
    ∃ ft' out, step ft (.first now k val nok) = .ok (ft', out) ∧ Step N MB MF T ft ft' (.first now k val nok) out := by
  obtain ⟨ft1, v, h1, ok, h2⟩ := fragDataLookup_spec i hle k nok
  rw [← or_assoc] at h2
  rcases h2 with h2 | ⟨a1, a2, a3, a4⟩
  · obtain ⟨s, e, b1, b2, b3, b4, b5, b6, b7, b8, b9⟩ := base_of h2
    have hr : (ft1.objs v).ref = 2 := by
      have := ok.inv.ref v (b2 ▸ live_mem b1)
      rw [if_pos rfl] at this
      exact this
    simp only [step, handleFirstFragment, fragInsertFirst, h1, Res.ok_bind, Res.pure_eq, if_neg b4]
    by_cases hst : (ft1.objs v).state = .storing
    · rw [if_neg (by simpa using hst)]
      simp only [Res.ok_bind]
      rw [unlock_frags (by simp [setObj, hr])]
      obtain ⟨c1, c2, c3, c4, c5, c6, c7⟩ := finish (o := { ft1.objs v with value := val, state := .hashValid, stored := [] })
        (ft2 := { setObj ft1 v { ft1.objs v with value := val, state := .hashValid, stored := [] } with fragsFree := ft1.fragsFree + (ft1.objs v).stored.length })
        ok b1 b2 rfl (by intro w; rfl) rfl rfl hr rfl ok.inv.disc ⟨rfl, rfl⟩
      refine ⟨_, _, rfl, c1, c2, fun k' hk => c3 k' (fun h => hk (by rw [h]; rfl)), ?_, ?_, More.ofSome rfl c7 c4 (by simp [ent])⟩
      · rintro k' ⟨⟩
        have hent : ent s { ft1.objs v with value := val, state := .hashValid, stored := [] } = ⟨now, .hashValid, val, []⟩ := by
          unfold ent; rw [b3]
        rw [hent] at c4
        have := KeyStep.firstOk (mtu := ft.mtu) (k := k) (v := val) (nok := nok) b5 (b6 ▸ hst)
        rw [← b8] at this
        simp only [and_self, if_true]
        exact KeyStep.cast c4 this
      · simp only [and_self, if_true]
        exact acc_lemma (dsc := []) c6 c5 ok.acc (by simp [accepted])
    · rw [if_pos hst]
      simp only [Res.ok_bind, List.length_nil, Nat.add_zero]
      obtain ⟨c1, c2, c3, c4, c5, c6, c7⟩ := finish (o := ft1.objs v) (ft2 := ft1) ok b1 b2 rfl (by intro w; by_cases hw : w = v <;> simp [hw]) rfl rfl hr rfl ok.inv.disc (Same.refl _)
      refine ⟨_, _, rfl, c1, c2, fun k' hk => c3 k' (fun h => hk (by rw [h]; rfl)), ?_, ?_, More.ofSome rfl c7 c4 (fun h => ⟨e, b9 (b6 ▸ hst), b6 ▸ h⟩)⟩
      · rintro k' ⟨⟩
        have hent : ent s (ft1.objs v) = { e with last := now } := by
          unfold ent; rw [b3, b6, b7, b8]
        rw [hent] at c4
        have hne : e.st ≠ .storing := b6 ▸ hst
        have := KeyStep.firstRefuse (mtu := ft.mtu) (now := now) (k := k) (v := val) (nok := nok) hne
        rw [← b9 hne] at this
        exact KeyStep.cast c4 this
      · have : ((unlock ft1 v).gone ++ storedAll (unlock ft1 v)).Perm (ft.gone ++ storedAll ft) := by
          rw [c5]
          exact (List.Perm.append (List.Perm.refl _) (perm_cancel c6)).trans ok.acc
        simpa [accepted] using this
  · subst a2
    obtain ⟨c1, c2, c3, c7⟩ := finish0 ok a1 a3
    simp only [step, handleFirstFragment, fragInsertFirst, h1, Res.ok_bind, Res.pure_eq, if_true, List.length_nil, Nat.add_zero]
    refine ⟨_, _, rfl, ok.inv, ok.same, fun k' hk => c1 k' (fun h => hk (by rw [h]; rfl)), ?_, by simpa [accepted] using ok.acc, More.ofNone rfl c7 c3 (fun _ _ => a4)⟩
    rintro k' ⟨⟩
    rw [show timeOf (.first now k val nok) = now from rfl, c2, c3]
    exact .firstFail

theorem step_stats {ft : Ft} {t now : Nat} (i : FInv N MB MF T ft t 0) (hle : t ≤ now) :
    ∃ ft' out, step ft (.stats now) = .ok (ft', out) ∧ Step N MB MF T ft ft' (.stats now) out := by
  obtain ⟨ct', ev, n, h1, -, h3, h4, h5, h6, h7, h8, -⟩ := Ct.stats_cases i.ctI now
  obtain ⟨s1, s2⟩ := Ct.stats_shape ft.ct now
  rw [h1] at s1 s2
  have hnz := Ct.step_nz (Ct.step_stats h1)
  have hp := Ct.perm_of_count (add := none) hnz (by simp) (by simpa using h7)
  simp only [Option.toList_none, List.nil_append] at hp
  have hch : chains ct' + ev.count .freeBucket = chains ft.ct + ev.count (.alloc true) := h8
  rw [quiet_alloc s2] at hch
  have hsub : ∀ s, Stored ct' s → Stored ft.ct s := by
    intro s hs
    obtain ⟨⟨b, hb, hm⟩, hd⟩ := Ct.stored_iff.1 hs
    exact Ct.stored_iff.2 ⟨(h6 b hb s hm hd).2, hd⟩
  obtain ⟨c1, -, c2, c3, c4, c5, c6⟩ := ct_step' (now := now) i s2 hp (fun h0 => Ct.zero_notin_fv hnz h0) h3
    (fun b hb s hs hd => by obtain ⟨_, b0, hb0, hs0⟩ := h6 b hb s hs hd; exact Nat.le_trans (i.tinv b0 hb0 s hs0 hd) hle) s1
    (fun s hs => i.ttlE s (hsub s hs)) (by simpa using hch)
  refine ⟨onEvents { ft with ct := ct' } ev, ⟨0, none, []⟩, by simp only [step, fragGetStats, h1], c1, c4, ?_, by rintro k ⟨⟩, by simpa [accepted] using c6, ?_⟩
  rotate_left
  · refine ⟨by rintro k ⟨⟩, ?_, by rintro k ⟨⟩, by rintro k e ⟨⟩⟩
    intro _ s hs
    rw [c3] at hs
    obtain ⟨⟨b, hb, hm⟩, hd⟩ := Ct.stored_iff.1 hs
    exact ⟨hsub s hs, by rw [c2 s.data (Ct.mem_vals.2 ⟨s, hs, rfl⟩)], (h6 b hb s hm hd).1⟩
  intro k _
  unfold view
  rw [c3]
  have h9 := h5 k
  rw [show timeOf (.stats now) = now from rfl, h9]
  cases hl : liveT ft.ct now k with
  | none => rfl
  | some s' =>
    rw [hl] at h9
    simp only [Option.map_some]
    rw [c2 s'.data (live_mem h9)]

/-- The datagram was completed while it was referenced: it is removed from the tracker and given back. -/
theorem finishDone {ft ft1 : Ft} {now v : Nat} {k : Key} {s : Slot} (ok : Ok N MB MF T ft ft1 now k v) (hl : liveT ft1.ct now k = some s) (hsv : s.data = v) (hv0 : v ≠ 0) :
    ∃ ft2, ctRemove ft1 now k = .ok ft2 ∧ (ft2.objs v).state = (ft1.objs v).state ∧ (ft2.objs v).value = (ft1.objs v).value ∧ ∀ n,
      FInv N MB MF T (unlock { ft2 with reAssembled := n } v) now 0 ∧ Same ft (unlock { ft2 with reAssembled := n } v) ∧
      (∀ k', k' ≠ k → view (unlock { ft2 with reAssembled := n } v) now k' = view ft now k') ∧ view (unlock { ft2 with reAssembled := n } v) now k = none ∧
      ((unlock { ft2 with reAssembled := n } v).gone ++ storedAll (unlock { ft2 with reAssembled := n } v)).Perm (ft.gone ++ storedAll ft) ∧
      Held ft (unlock { ft2 with reAssembled := n } v) now k := by
  obtain ⟨ct', ev, m, h1, -, e⟩ := Ct.remove_cases ok.inv.ctI now k
  obtain ⟨s1, s2⟩ := Ct.remove_shape h1
  have hnz := Ct.step_nz (Ct.step_remove h1)
  have hp := e.perm hnz (by simp)
  simp only [Option.toList_none, List.nil_append] at hp
  have hch := chains_eff e
  rw [quiet_alloc s2] at hch
  obtain ⟨c1, c2, c3, c4, c5, c6, c7, c8, c9, c10⟩ := ct_step (ct' := ct') ok.inv.toO s2 hp
  have hv1 : v ∈ vals ft1.ct := hsv ▸ live_mem hl
  have hvc : v ∉ vals ct' := by
    intro hm
    obtain ⟨s', hs', hd'⟩ := Ct.mem_vals.1 hm
    obtain ⟨⟨b, hb, hsb⟩, hd0⟩ := Ct.stored_iff.1 hs'
    rcases e.sub b hb s' hsb hd0 with ⟨b0, hb0, hs0⟩ | ⟨_, _, hh⟩
    · have hin : Stored ft1.ct s' := Ct.stored_iff.2 ⟨⟨b0, hb0, hs0⟩, hd0⟩
      have hsl := Ct.stored_of_live hl
      have : s' = s := Ct.slot_inj ok.inv.vnodup hin hsl.1 (by rw [hd', hsv])
      subst this
      have := Ct.live_of_stored e.inv hs' hsl.2.2
      rw [hsl.2.1, e.self] at this
      simp at this
    · simp at hh
  have hvf : v ∈ fv ev := (List.mem_append.1 (hp.mem_iff.2 hv1)).resolve_left hvc
  have hnd : (vals ct' ++ fv ev).Nodup := hp.nodup_iff.2 ok.inv.vnodup
  have hn := List.nodup_append.1 hnd
  have hD : (fv ev).filter (fun w => decide (w = v)) = [v] := by
    have hnd2 := hn.2.1
    clear hn hnd c6 c7 c8 hp
    revert hvf hnd2
    generalize fv ev = L
    intro hvf hnd2
    induction L with
    | nil => cases hvf
    | cons a L ih =>
      have hc := List.nodup_cons.1 hnd2
      by_cases ha : a = v
      · subst ha
        rw [List.filter_cons_of_pos (by simp)]
        congr 1
        rw [List.filter_eq_nil_iff]
        intro w hw
        simp only [decide_eq_true_eq]
        rintro rfl
        exact hc.1 hw
      · rw [List.filter_cons_of_neg (by simp [ha])]
        exact ih ((List.mem_cons.1 hvf).resolve_left (fun h => ha h.symm)) hc.2
  rw [hD] at c6 c7 c8
  have hr : (ft1.objs v).ref = 2 := by
    have := ok.inv.ref v hv1
    rw [if_pos rfl] at this
    exact this
  have hov := c2 v hvf
  have hobj : ∀ w ∈ vals ct', (onEvents { ft1 with ct := ct' } ev).objs w = ft1.objs w := fun w hw => c1 w (fun h2 => hn.2.2 w hw w h2 rfl)
  refine ⟨onEvents { ft1 with ct := ct' } ev, ?_, by rw [hov], by rw [hov], ?_⟩
  · unfold ctRemove
    rw [h1]
    simp only [Res.ok_bind, Res.pure_eq]
  intro n
  generalize hF : ({ onEvents { ft1 with ct := ct' } ev with reAssembled := n } : Ft) = F
  have f1 : F.ct = ct' := by rw [← hF]; exact c3
  have f2 : F.objs = (onEvents { ft1 with ct := ct' } ev).objs := by rw [← hF]
  have f3 : F.freeObjs = (onEvents { ft1 with ct := ct' } ev).freeObjs := by rw [← hF]
  have f4 : F.fragsFree = (onEvents { ft1 with ct := ct' } ev).fragsFree := by rw [← hF]
  have f5 : F.gone = (onEvents { ft1 with ct := ct' } ev).gone := by rw [← hF]
  have f6 : F.fragsDiscarded = (onEvents { ft1 with ct := ct' } ev).fragsDiscarded := by rw [← hF]
  have f7 : F.bucketsFree = (onEvents { ft1 with ct := ct' } ev).bucketsFree := by rw [← hF]
  have f8 : Same ft1 F := by rw [← hF]; exact ⟨c4.mtu, c4.reass⟩
  have hvne : ∀ w ∈ vals ct', w ≠ v := by rintro w hw rfl; exact hvc hw
  have hO : OInv N MF (v :: vals F.ct) F 0 := by
    rw [f1]
    refine ⟨?_, ?_, ?_, by rw [f6, f5]; exact c9⟩
    · rw [f3]
      refine List.Perm.trans ?_ c6
      rw [List.append_assoc]
      exact List.perm_middle.symm
    · intro w hw
      rw [f2]
      rcases List.mem_cons.1 hw with rfl | hw
      · rw [hov, if_neg hv0]; simp only; omega
      · rw [hobj w hw, if_neg (fun h0 => Ct.zero_notin_vals _ (h0 ▸ hw))]
        have := ok.inv.ref w (hp.mem_iff.1 (List.mem_append_left _ hw))
        rw [if_neg (hvne w hw)] at this
        exact this
    · unfold sizeOf at c7 ⊢
      rw [f2, f4, List.map_cons, List.sum_cons, hov]
      simp only [List.map_cons, List.map_nil, List.sum_cons, List.sum_nil] at c7
      simp only
      omega
  obtain ⟨d1, d2, d3, d4, d5, d6, d7⟩ := unlock_drop' hO hv0
  refine ⟨⟨by rw [d3, f1]; exact e.inv, by rw [d3, f1]; exact e.tinv ok.inv.tinv, by rw [d3, f1, s1]; exact ok.inv.ttl,
    by rw [d3, f1]; exact TEff.ttlE e ok.inv.ttlE (by rintro _ ⟨⟩), by rw [d3]; exact d1.perm, by rw [d3]; exact d1.ref, by rw [d3]; exact d1.frags, ?_, d1.disc⟩,
    (ok.same.trans f8).trans d5, ?_, ?_, ?_, ?_, ?_⟩
  · rw [d3, d7, f7, c10, f1]
    have := ok.inv.bkt
    omega
  · intro k' hk
    unfold view
    rw [d3, f1, e.live k' hk now (.inr rfl), ok.other k' hk]
    cases hl' : liveT ft.ct now k' with
    | none => rfl
    | some s' =>
      have hl1 : liveT ft1.ct now k' = some s' := by rw [ok.other k' hk]; exact hl'
      have hl2 : liveT ct' now k' = some s' := by rw [e.live k' hk now (.inr rfl)]; exact hl1
      have hne : s'.data ≠ v := hsv ▸ data_ne ok.inv.vnodup hk hl hl1
      simp only [Option.map_some]
      rw [d2 _ hne, f2, hobj _ (live_mem hl2), ok.objs s'.data (live_mem hl1) hne]
  · unfold view
    rw [d3, f1, e.self]
    rfl
  · refine List.Perm.trans ?_ ok.acc
    refine List.Perm.trans ?_ c8
    rw [d4, f5, f2, hov]
    have h6 : storedAll (unlock F v) = stAll (onEvents { ft1 with ct := ct' } ev) (vals ct') := by
      unfold storedAll stAll
      rw [d3, f1]
      exact flatMap_congr' (fun w hw => by rw [d2 w (hvne w hw), f2])
    rw [h6]
    rw [List.perm_iff_count]
    intro x
    simp only [List.count_append, List.flatMap_cons, List.flatMap_nil, List.append_nil]
    omega
  · intro s' hs' hk
    rw [d3, f1] at hs'
    have hm' : s'.data ∈ vals ct' := Ct.mem_vals.2 ⟨s', hs', rfl⟩
    have hs1 := TEff.sub' e s' hs' hk
    refine ⟨ok.sub s' hs1 hk, ?_⟩
    rw [d2 _ (hvne _ hm'), f2, hobj _ hm', ok.objs s'.data (Ct.mem_vals.2 ⟨s', hs1, rfl⟩) (hvne _ hm')]
  · intro s' hs' hk
    rw [d3, f1] at hs'
    have := TEff.own' e (by rintro _ ⟨⟩) s' hs' hk
    rw [e.self] at this
    simp at this

theorem step_frag {ft : Ft} {t now : Nat} (i : FInv N MB MF T ft t 0) (hle : t ≤ now) (k : Key) (id len : Nat) (nok : Bool) (rc : Int) :
    ∃ ft' out, step ft (.frag now k id len nok rc) = .ok (ft', out) ∧ Step N MB MF T ft ft' (.frag now k id len nok rc) out := by
  obtain ⟨ft1, v, h1, ok, h2⟩ := fragDataLookup_spec i hle k nok
  rw [← or_assoc] at h2
  rcases h2 with h2 | ⟨a1, a2, a3, a4⟩
  · obtain ⟨s, e, b1, b2, b3, b4, b5, b6, b7, b8, b9⟩ := base_of h2
    have hr : (ft1.objs v).ref = 2 := by
      have := ok.inv.ref v (b2 ▸ live_mem b1)
      rw [if_pos rfl] at this
      exact this
    simp only [step, fragGetValueOrStore, h1, Res.ok_bind, Res.pure_eq, if_neg b4]
    by_cases hdone : (ft1.reass = true ∧ (ft1.objs v).asm = true) ∧ (ft1.objs v).state = .hashValid ∧ rc = 0
    · obtain ⟨ft2, g1, g2, g3, g4⟩ := finishDone ok b1 b2 b4
      unfold reassemble
      rw [if_pos hdone.1, if_pos hdone.2.1, if_pos hdone.2.2, g1]
      simp only [Res.ok_bind, Res.pure_eq, g2, hdone.2.1]
      obtain ⟨c1, c2, c3, c4, c5, c6⟩ := g4 (u32 (ft2.reAssembled + 1))
      refine ⟨_, _, rfl, c1, c2, fun k' hk => c3 k' (fun h => hk (by rw [h]; rfl)), ?_, by simpa [accepted] using c5, More.ofNone rfl c6 c4 (fun _ h0 => by
        have hst : e.st = .hashValid := b6 ▸ hdone.2.1
        have h1 := b9 (by rw [hst]; simp)
        have h2 : view ft now k = none := h0
        rw [h1] at h2
        cases h2)⟩
      rintro k' ⟨⟩
      refine KeyStep.cast c4 ?_
      have hst : e.st = .hashValid := b6 ▸ hdone.2.1
      rw [g3, b7, hdone.2.2]
      have := KeyStep.fragDone (mtu := ft.mtu) (now := now) (k := k) (id := id) (len := len) (nok := nok) hst
      rw [← b9 (by rw [hst]; simp)] at this
      exact this
    · -- the reassembler does not remove the entry
      obtain ⟨o1, g1, g2⟩ : ∃ o1 : Obj, reassemble ft1 now k v rc = .ok (setObj ft1 v o1) ∧
          o1.ref = 2 ∧ o1.state = (ft1.objs v).state ∧ o1.value = (ft1.objs v).value ∧ o1.stored = (ft1.objs v).stored := by
        have hself : ft1 = setObj ft1 v (ft1.objs v) := by
          have : ft1.objs = fun w => if w = v then ft1.objs v else ft1.objs w := by
            funext w; by_cases hw : w = v <;> simp [hw]
          unfold setObj
          rw [← this]
        unfold reassemble
        by_cases q1 : ft1.reass = true ∧ (ft1.objs v).asm = true
        · rw [if_pos q1]
          by_cases q2 : (ft1.objs v).state = .hashValid
          · have q3 : ¬ rc = 0 := fun h => hdone ⟨q1, q2, h⟩
            rw [if_pos q2, if_neg q3]
            exact ⟨ft1.objs v, by rw [← hself], hr, rfl, rfl, rfl⟩
          · rw [if_neg q2]
            exact ⟨{ ft1.objs v with asm := false }, rfl, hr, rfl, rfl, rfl⟩
        · rw [if_neg q1]
          exact ⟨ft1.objs v, by rw [← hself], hr, rfl, rfl, rfl⟩
      obtain ⟨g2, g3, g4, g5⟩ := g2
      rw [g1]
      have hobv : (setObj ft1 v o1).objs v = o1 := by simp [setObj]
      simp only [Res.ok_bind, hobv]
      have hkeep : ∀ (ft2 : Ft), ft2 = setObj ft1 v o1 → FInv N MB MF T (unlock ft2 v) now 0 ∧ Same ft (unlock ft2 v) ∧
          (∀ k', k' ≠ k → view (unlock ft2 v) now k' = view ft now k') ∧ view (unlock ft2 v) now k = some { e with last := now } ∧
          ((unlock ft2 v).gone ++ storedAll (unlock ft2 v)).Perm (ft.gone ++ storedAll ft) ∧ Held ft (unlock ft2 v) now k := by
        rintro ft2 rfl
        obtain ⟨c1, c2, c3, c4, c5, c6, c7⟩ := finish (o := o1) (ft2 := setObj ft1 v o1) ok b1 b2 rfl (by intro w; rfl) rfl rfl g2
          (by rw [g5]; rfl) ok.inv.disc ⟨rfl, rfl⟩
        have hent : ent s o1 = { e with last := now } := by
          unfold ent; rw [b3, g3, g4, g5, b6, b7, b8]
        rw [hent] at c4
        rw [← g5] at c6
        refine ⟨c1, c2, c3, c4, ?_, c7⟩
        rw [c5]
        exact (List.Perm.append (List.Perm.refl _) (perm_cancel c6)).trans ok.acc
      obtain ⟨k1, k2, k3, k4, k5, k6⟩ := hkeep _ rfl
      have hother : ∀ {F : Ft}, (∀ k', k' ≠ k → view F now k' = view ft now k') →
          ∀ k', keyOf (.frag now k id len nok rc) ≠ some k' → view F now k' = view ft now k' :=
        fun h k' hk => h k' (fun h => hk (by rw [h]; rfl))
      cases hst : o1.state with
      | hashValid =>
        simp only [Res.ok_bind]
        have hst' : e.st = .hashValid := by rw [← b6, ← g3]; exact hst
        refine ⟨_, _, rfl, k1, k2, hother k3, ?_, by simpa [accepted] using k5, More.ofSome rfl k6 k4 (fun h => by rw [show ({ e with last := now } : Entry).st = e.st from rfl, hst'] at h; cases h)⟩
        rintro k' ⟨⟩
        refine KeyStep.cast k4 ?_
        rw [g4, b7]
        have := KeyStep.fragOk (mtu := ft.mtu) (now := now) (k := k) (id := id) (len := len) (nok := nok) (rc := rc) hst'
        rw [← b9 (by rw [hst']; simp)] at this
        exact this
      | poisoned =>
        simp only [Res.ok_bind]
        have hst' : e.st = .poisoned := by rw [← b6, ← g3]; exact hst
        refine ⟨_, _, rfl, k1, k2, hother k3, ?_, by simpa [accepted] using k5, More.ofSome rfl k6 k4 (fun _ => ⟨e, b9 (by rw [hst']; simp), hst'⟩)⟩
        rintro k' ⟨⟩
        refine KeyStep.cast k4 ?_
        have := KeyStep.fragPoisoned (mtu := ft.mtu) (now := now) (k := k) (id := id) (len := len) (nok := nok) (rc := rc) hst'
        rw [← b9 (by rw [hst']; simp)] at this
        exact this
      | storing =>
        have hst' : e.st = .storing := by rw [← b6, ← g3]; exact hst
        have hm : (setObj ft1 v o1).mtu = ft.mtu := ok.same.mtu
        simp only
        by_cases hlen : (setObj ft1 v o1).mtu < len
        · rw [if_pos hlen]
          simp only [Res.ok_bind]
          refine ⟨_, _, rfl, k1, k2, hother k3, ?_, by simpa [accepted] using k5, More.ofSome rfl k6 k4 (fun h => by rw [show ({ e with last := now } : Entry).st = e.st from rfl, hst'] at h; cases h)⟩
          rintro k' ⟨⟩
          refine KeyStep.cast k4 ?_
          exact .fragBig b5 hst' (by omega)
        · rw [if_neg hlen]
          by_cases hfull : (setObj ft1 v o1).fragsFree = 0
          · rw [if_pos hfull]
            simp only [Res.ok_bind]
            rw [unlock_discard (by simp [setObj, g2])]
            have hd : (discard (setObj (setObj ft1 v o1) v { o1 with state := .poisoned, stored := [] }) o1.stored).fragsDiscarded =
                u32 (discard (setObj (setObj ft1 v o1) v { o1 with state := .poisoned, stored := [] }) o1.stored).gone.length := by
              have := ok.inv.disc
              simp only [discard, setObj, List.length_append, this]
              unfold u32
              omega
            obtain ⟨c1, c2, c3, c4, c5, c6, c7⟩ := finish (o := { o1 with state := .poisoned, stored := [] })
              (ft2 := discard (setObj (setObj ft1 v o1) v { o1 with state := .poisoned, stored := [] }) o1.stored) ok b1 b2 rfl
              (by intro w; by_cases hw : w = v <;> simp [discard, setObj, hw]) rfl rfl g2 (by rw [← g5]; rfl) hd ⟨rfl, rfl⟩
            refine ⟨_, _, rfl, c1, c2, hother c3, ?_, acc_lemma (dsc := o1.stored) c6 c5 ok.acc (by simp [accepted, g5]), ?_⟩
            · rintro k' ⟨⟩
              refine KeyStep.cast c4 ?_
              have hent : ent s { o1 with state := .poisoned, stored := [] } = ⟨now, .poisoned, e.value, []⟩ := by
                unfold ent; rw [b3, g4, b7]
              rw [hent]
              exact .fragFull b5 hst' (by omega)
            · refine ⟨by rintro k' ⟨⟩; exact c7, (fun h => by cases h), ?_, ?_⟩
              · rintro k' ⟨⟩ _ _ h2
                exact absurd (c4.symm.trans h2) (by simp)
              · rintro k' e' ⟨⟩ _ _ _
                have q1 := c6.length_eq
                have q2 := ok.inv.frags
                have q3 : ft1.fragsFree = 0 := hfull
                rw [← storedAll_length] at q2
                simp only [List.length_append, List.length_nil, b8] at q1
                have q4 : ((view ft now k).map Entry.stored).getD [] = e.stored := by
                  rcases b5 with h | ⟨h, -, h', -⟩
                  · rw [h]; rfl
                  · rw [h, h']; rfl
                show MF ≤ _ + (((view ft now k).map Entry.stored).getD []).length
                rw [q4]
                omega
          · rw [if_neg hfull]
            simp only [Res.ok_bind]
            have hpos : 0 < ft1.fragsFree := Nat.pos_of_ne_zero hfull
            obtain ⟨c1, c2, c3, c4, c5, c6, c7⟩ := finish (o := { o1 with state := .storing, stored := id :: o1.stored })
              (ft2 := { setObj { setObj ft1 v o1 with fragsFree := ft1.fragsFree - 1 } v { o1 with state := .storing, stored := id :: o1.stored } with
                fragsAllocated := u32 (ft1.fragsAllocated + 1) }) ok b1 b2 rfl
              (by intro w; by_cases hw : w = v <;> simp [setObj, hw]) rfl rfl g2
              (by simp only [setObj, List.length_cons, g5]; omega) ok.inv.disc ⟨rfl, rfl⟩
            have hob2 : ({ setObj ft1 v o1 with fragsFree := ft1.fragsFree - 1 } : Ft).objs v = o1 := hobv
            refine ⟨_, _, rfl, c1, c2, hother c3, ?_, acc_lemma (dsc := []) c6 c5 ok.acc (by simp [accepted, g5]), More.ofSome rfl c7 c4 (by simp [ent])⟩
            rintro k' ⟨⟩
            refine KeyStep.cast c4 ?_
            have hent : ent s { o1 with state := .storing, stored := id :: o1.stored } = ⟨now, .storing, e.value, id :: e.stored⟩ := by
              unfold ent; rw [b3, g4, b7, g5, b8]
            rw [hent]
            exact .fragStore b5 hst' (by omega)
  · subst a2
    obtain ⟨c1, c2, c3, c7⟩ := finish0 ok a1 a3
    simp only [step, fragGetValueOrStore, h1, Res.ok_bind, Res.pure_eq, if_true]
    refine ⟨_, _, rfl, ok.inv, ok.same, fun k' hk => c1 k' (fun h => hk (by rw [h]; rfl)), ?_, by simpa [accepted] using ok.acc, More.ofNone rfl c7 c3 (fun _ _ => a4)⟩
    rintro k' ⟨⟩
    rw [show timeOf (.frag now k id len nok rc) = now from rfl, c2, c3]
    exact .fragFail

theorem step_all {ft : Ft} {t : Nat} (i : FInv N MB MF T ft t 0) (op : Op) (hle : t ≤ timeOf op) :
    ∃ ft' out, step ft op = .ok (ft', out) ∧ Step N MB MF T ft ft' op out := by
  cases op with
  | first now k v nok => exact step_first i hle k v nok
  | get now k => exact step_get i hle k
  | frag now k id len nok rc => exact step_frag i hle k id len nok rc
  | stats now => exact step_stats i hle

end Nfqlb.Frag
