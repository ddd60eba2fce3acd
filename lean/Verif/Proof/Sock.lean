import Verif.Spec.Sock
import Verif.Proof.Addr
import Mathlib.Tactic.Common

/-! Lemmas for `Props/Sock.lean`. -/

set_option autoImplicit false

namespace Nfqlb.Sock

open Nfqlb Nfqlb.Addr Nfqlb.Spec.Sk

variable {net : Net} {gai : Gai}

theorem bind_some (hn : NetOk net) {s s' : Sys} {a : Adr} {pid : Nat} {role : Role} (h : bind net s a pid role = some s') :
    ∃ b, s'.bound = ⟨b, pid, role⟩ :: s.bound ∧ s'.linger = s.linger ∧ portZero b = false ∧ (portZero a = false → b = a) ∧ b.head? = a.head? ∧ ∀ c ∈ s.inUse, net.clash b c = false := by
  unfold bind at h
  by_cases hz : portZero a = true
  · rw [if_pos hz] at h
    cases hp : net.pick s.inUse a with
    | none => rw [hp] at h; cases h
    | some b =>
      rw [hp] at h
      dsimp only at h
      cases h
      obtain ⟨h1, h2, h3⟩ := hn.pick _ _ _ hp
      exact ⟨b, rfl, rfl, h1, (fun hf => by rw [hz] at hf; cases hf), h2, h3⟩
  · rw [if_neg hz] at h
    have hz' : portZero a = false := by cases hc : portZero a <;> simp_all
    by_cases hu : s.inUse.any (net.clash a) = true
    · rw [if_pos hu] at h; cases h
    · rw [if_neg hu] at h
      cases h
      refine ⟨a, rfl, rfl, hz', fun _ => rfl, rfl, fun c hc => ?_⟩
      cases hcc : net.clash a c with
      | false => rfl
      | true => exact absurd (List.any_eq_true.mpr ⟨c, hc, hcc⟩) hu

theorem bind_free (s : Sys) (a : Adr) (pid : Nat) (role : Role) (hz : portZero a = false) (h : ∀ c ∈ s.inUse, net.clash a c = false) :
    bind net s a pid role = some { s with bound := ⟨a, pid, role⟩ :: s.bound } := by
  unfold bind
  rw [if_neg (by rw [hz]; decide), if_neg]
  rw [List.any_eq_true]
  rintro ⟨c, hc, hcc⟩
  rw [h c hc] at hcc
  cases hcc

theorem bind_taken (s : Sys) (a c : Adr) (pid : Nat) (role : Role) (hz : portZero a = false) (hc : c ∈ s.inUse) (h : net.clash a c = true) : bind net s a pid role = none := by
  unfold bind
  rw [if_neg (by rw [hz]; decide), if_pos (List.any_eq_true.mpr ⟨c, hc, h⟩)]

/-- What holds after every history `l` is the list of running starts. -/
structure Inv (net : Net) (gai : Gai) (s : Sys) (l : List Ev) : Prop where
  sep : s.bound.Pairwise (fun x y => net.clash x.adr y.adr = false)
  nz : ∀ x ∈ s.bound, portZero x.adr = false
  has : ∀ e ∈ l, ∀ w ∈ wants e, ∀ pid, pidOf e = some pid → ∃ a x, address gai w.2 = .ok a ∧ x ∈ s.bound ∧ x.pid = pid ∧ x.role = w.1 ∧ (portZero a = false → x.adr = a)
  src : ∀ x ∈ s.bound, ∃ e ∈ l, pidOf e = some x.pid ∧ ∃ t a, (x.role, t) ∈ wants e ∧ address gai t = .ok a ∧ x.adr.head? = a.head? ∧ (portZero a = false → x.adr = a)
  ling : ∀ a ∈ s.linger, a.head? ≠ some 1
  kind : ∀ e ∈ l, ∃ pid tr, e = .lb pid tr ∨ ∃ env, e = .flowlb pid env tr

theorem inv_empty : Inv net gai empty [] :=
  ⟨.nil, fun _ h => absurd h List.not_mem_nil, fun _ h => absurd h List.not_mem_nil, fun _ h => absurd h List.not_mem_nil, fun _ h => absurd h List.not_mem_nil, fun _ h => absurd h List.not_mem_nil⟩

theorem listen_some (hn : NetOk net) {s s' : Sys} {t : Str} {pid : Nat} {role : Role} (h : listenAt net gai s t pid role = .ok (some s')) :
    ∃ a b, address gai t = .ok a ∧ s'.bound = ⟨b, pid, role⟩ :: s.bound ∧ s'.linger = s.linger ∧ portZero b = false ∧ (portZero a = false → b = a) ∧ b.head? = a.head? ∧ ∀ c ∈ s.inUse, net.clash b c = false := by
  unfold listenAt at h
  cases ha : address gai t with
  | ok a =>
    rw [ha] at h
    dsimp only at h
    injection h with h
    obtain ⟨b, hb⟩ := bind_some hn h
    exact ⟨a, b, rfl, hb⟩
  | die => rw [ha] at h; cases h
  | ub => rw [ha] at h; cases h
  | hang => rw [ha] at h; cases h

theorem wants_lb {pid : Nat} {opt : Option Str} : wants (.lb pid opt) = [(.trace, traceText opt)] := rfl

theorem wants_flowlb {pid : Nat} {env : Option Str} {opt : Option Str} : wants (.flowlb pid env opt) = [(.trace, traceText opt), (.flow, flowText env)] := rfl

theorem step_lb (pid : Nat) (tr : Option Str) {s s' : Sys} {o : Out} (h : step net gai s (.lb pid tr) = .ok (s', o)) :
    (startTrace net gai s pid tr = .ok none ∧ s' = s ∧ o = .ended) ∨ (startTrace net gai s pid tr = .ok (some s') ∧ o = .running) := by
  unfold step at h
  dsimp only at h
  cases hs : startTrace net gai s pid tr with
  | ok r =>
    rw [hs] at h
    cases r with
    | none => cases h; exact .inl ⟨rfl, rfl, rfl⟩
    | some s1 => cases h; exact .inr ⟨rfl, rfl⟩
  | die => rw [hs] at h; cases h
  | ub => rw [hs] at h; cases h
  | hang => rw [hs] at h; cases h

theorem step_flowlb (pid : Nat) (env : Option Str) (tr : Option Str) {s s' : Sys} {o : Out} (h : step net gai s (.flowlb pid env tr) = .ok (s', o)) :
    (s' = s ∧ o = .ended ∧ (startTrace net gai s pid tr = .ok none ∨ ∃ s1, startTrace net gai s pid tr = .ok (some s1) ∧ listenAt net gai s1 (flowText env) pid .flow = .ok none)) ∨
    (o = .running ∧ ∃ s1, startTrace net gai s pid tr = .ok (some s1) ∧ listenAt net gai s1 (flowText env) pid .flow = .ok (some s')) := by
  unfold step at h
  dsimp only at h
  cases hs : startTrace net gai s pid tr with
  | ok r =>
    rw [hs] at h
    cases r with
    | none => cases h; exact .inl ⟨rfl, rfl, .inl rfl⟩
    | some s1 =>
      simp only [Res.ok_bind] at h
      cases hl : listenAt net gai s1 (flowText env) pid .flow with
      | ok r =>
        rw [hl] at h
        cases r with
        | none => cases h; exact .inl ⟨rfl, rfl, .inr ⟨s1, rfl, hl⟩⟩
        | some s2 => cases h; exact .inr ⟨rfl, s1, rfl, hl⟩
      | die => rw [hl] at h; cases h
      | ub => rw [hl] at h; cases h
      | hang => rw [hl] at h; cases h
  | die => rw [hs] at h; cases h
  | ub => rw [hs] at h; cases h
  | hang => rw [hs] at h; cases h

theorem step_list (env : Option Str) {s s' : Sys} {o : Out} (h : step net gai s (.list env) = .ok (s', o)) :
    (connect net gai s (flowText env) = .ok none ∧ s' = s ∧ o = .refused) ∨
    ∃ l, connect net gai s (flowText env) = .ok (some l) ∧ s' = (if l.adr.head? = some 1 then s else { s with linger := l.adr :: s.linger }) ∧ o = .served l.pid l.role := by
  unfold step at h
  dsimp only at h
  cases hs : connect net gai s (flowText env) with
  | ok r =>
    rw [hs] at h
    cases r with
    | none => cases h; exact .inl ⟨rfl, rfl, rfl⟩
    | some l => cases h; exact .inr ⟨l, rfl, rfl, rfl⟩
  | die => rw [hs] at h; cases h
  | ub => rw [hs] at h; cases h
  | hang => rw [hs] at h; cases h

theorem step_trace (opt : Option Str) {s s' : Sys} {o : Out} (h : step net gai s (.trace opt) = .ok (s', o)) :
    s' = s ∧ ((connect net gai s (traceText opt) = .ok none ∧ o = .refused) ∨ ∃ l, connect net gai s (traceText opt) = .ok (some l) ∧ o = .served l.pid l.role) := by
  unfold step at h
  dsimp only at h
  cases hs : connect net gai s (traceText opt) with
  | ok r =>
    rw [hs] at h
    cases r with
    | none => cases h; exact ⟨rfl, .inl ⟨rfl, rfl⟩⟩
    | some l => cases h; exact ⟨rfl, .inr ⟨l, rfl, rfl⟩⟩
  | die => rw [hs] at h; cases h
  | ub => rw [hs] at h; cases h
  | hang => rw [hs] at h; cases h

theorem connect_some {s : Sys} {t : Str} {l : Listener} (h : connect net gai s t = .ok (some l)) :
    ∃ a, address gai t = .ok a ∧ s.bound.find? (fun l => net.reach a l.adr) = some l ∧ l ∈ s.bound ∧ net.reach a l.adr = true := by
  unfold connect at h
  cases ha : address gai t with
  | ok a =>
    rw [ha] at h
    dsimp only at h
    injection h with h
    exact ⟨a, rfl, h, List.mem_of_find?_eq_some h, by have := List.find?_some h; exact this⟩
  | die => rw [ha] at h; cases h
  | ub => rw [ha] at h; cases h
  | hang => rw [ha] at h; cases h

/-- A process that gets one more socket. -/
theorem inv_one (hn : NetOk net) {s s' : Sys} {l : List Ev} (hi : Inv net gai s l) {pid : Nat} {tr : Option Str} (h : startTrace net gai s pid tr = .ok (some s')) :
    Inv net gai s' (.lb pid tr :: l) := by
  obtain ⟨a, b, ha, hb, hlin, hz, hab, hh, hc⟩ := listen_some hn h
  refine ⟨?_, ?_, ?_, ?_, ?_, List.forall_mem_cons.mpr ⟨⟨pid, tr, .inl rfl⟩, hi.kind⟩⟩
  · rw [hb]
    refine List.pairwise_cons.mpr ⟨fun x hx => hc _ ?_, hi.sep⟩
    exact List.mem_append_left _ (List.mem_map_of_mem hx)
  · intro x hx
    rw [hb] at hx
    rcases List.mem_cons.mp hx with rfl | hx
    · exact hz
    · exact hi.nz x hx
  · intro e he w hw p hp
    rcases List.mem_cons.mp he with rfl | he
    · rw [wants_lb] at hw
      rw [List.mem_singleton] at hw
      subst hw
      cases hp
      exact ⟨a, ⟨b, pid, .trace⟩, ha, by rw [hb]; exact List.mem_cons_self, rfl, rfl, hab⟩
    · obtain ⟨a', x, h1, h2, h3⟩ := hi.has e he w hw p hp
      exact ⟨a', x, h1, by rw [hb]; exact List.mem_cons_of_mem _ h2, h3⟩
  · intro x hx
    rw [hb] at hx
    rcases List.mem_cons.mp hx with rfl | hx
    · exact ⟨_, List.mem_cons_self, rfl, traceText tr, a, by rw [wants_lb]; exact List.mem_singleton.mpr rfl, ha, hh, hab⟩
    · obtain ⟨e, he, h⟩ := hi.src x hx
      exact ⟨e, List.mem_cons_of_mem _ he, h⟩
  · rw [hlin]; exact hi.ling

theorem inv_two (hn : NetOk net) {s s1 s' : Sys} {l : List Ev} (hi : Inv net gai s l) {pid : Nat} {env : Option Str} {tr : Option Str} (h : startTrace net gai s pid tr = .ok (some s1))
    (h' : listenAt net gai s1 (flowText env) pid .flow = .ok (some s')) : Inv net gai s' (.flowlb pid env tr :: l) := by
  have h1 := inv_one hn hi h
  obtain ⟨a, b, ha, hb, hlin, hz, hab, hh, hc⟩ := listen_some hn h'
  refine ⟨?_, ?_, ?_, ?_, ?_, List.forall_mem_cons.mpr ⟨⟨pid, tr, .inr ⟨env, rfl⟩⟩, hi.kind⟩⟩
  · rw [hb]
    refine List.pairwise_cons.mpr ⟨fun x hx => hc _ ?_, h1.sep⟩
    exact List.mem_append_left _ (List.mem_map_of_mem hx)
  · intro x hx
    rw [hb] at hx
    rcases List.mem_cons.mp hx with rfl | hx
    · exact hz
    · exact h1.nz x hx
  · intro e he w hw p hp
    rcases List.mem_cons.mp he with rfl | he
    · rw [wants_flowlb] at hw
      cases hp
      rcases List.mem_cons.mp hw with rfl | hw
      · obtain ⟨a', x, g1, g2, g3⟩ := h1.has (.lb pid tr) List.mem_cons_self (.trace, traceText tr) (by rw [wants_lb]; exact List.mem_singleton.mpr rfl) pid rfl
        exact ⟨a', x, g1, by rw [hb]; exact List.mem_cons_of_mem _ g2, g3⟩
      · rw [List.mem_singleton] at hw
        subst hw
        exact ⟨a, ⟨b, pid, .flow⟩, ha, by rw [hb]; exact List.mem_cons_self, rfl, rfl, hab⟩
    · obtain ⟨a', x, g1, g2, g3⟩ := h1.has e (List.mem_cons_of_mem _ he) w hw p hp
      exact ⟨a', x, g1, by rw [hb]; exact List.mem_cons_of_mem _ g2, g3⟩
  · intro x hx
    rw [hb] at hx
    rcases List.mem_cons.mp hx with rfl | hx
    · exact ⟨_, List.mem_cons_self, rfl, flowText env, a, by rw [wants_flowlb]; exact List.mem_cons_of_mem _ (List.mem_singleton.mpr rfl), ha, hh, hab⟩
    · obtain ⟨e, he, hp, u, a', hw, hr⟩ := h1.src x hx
      rcases List.mem_cons.mp he with rfl | he
      · rw [wants_lb] at hw
        exact ⟨_, List.mem_cons_self, hp, u, a', by rw [wants_flowlb]; exact List.mem_cons.mpr (.inl (List.mem_singleton.mp hw)), hr⟩
      · exact ⟨e, List.mem_cons_of_mem _ he, hp, u, a', hw, hr⟩
  · rw [hlin]; exact h1.ling

theorem inv_step (hn : NetOk net) {s s' : Sys} {l : List Ev} {e : Ev} {o : Out} (hi : Inv net gai s l) (h : step net gai s e = .ok (s', o)) : Inv net gai s' (note l (e, o)) := by
  cases e with
  | lb pid tr =>
    rcases step_lb pid tr h with ⟨_, rfl, rfl⟩ | ⟨h1, rfl⟩
    · exact hi
    · exact inv_one hn hi h1
  | flowlb pid env tr =>
    rcases step_flowlb pid env tr h with ⟨rfl, rfl, _⟩ | ⟨rfl, s1, h1, h2⟩
    · exact hi
    · exact inv_two hn hi h1 h2
  | stop pid =>
    cases h
    refine ⟨hi.sep.filter _, fun x hx => hi.nz x (List.mem_filter.mp hx).1, ?_, ?_, hi.ling, fun e he => hi.kind e (List.mem_filter.mp he).1⟩
    · intro e he w hw p hp
      obtain ⟨he1, he2⟩ := List.mem_filter.mp he
      obtain ⟨a, x, h1, h2, h3, h4⟩ := hi.has e he1 w hw p hp
      refine ⟨a, x, h1, List.mem_filter.mpr ⟨h2, ?_⟩, h3, h4⟩
      rw [hp] at he2
      rw [h3]
      simpa using he2
    · intro x hx
      obtain ⟨hx1, hx2⟩ := List.mem_filter.mp hx
      obtain ⟨e, he, hp, h⟩ := hi.src x hx1
      refine ⟨e, List.mem_filter.mpr ⟨he, ?_⟩, hp, h⟩
      rw [hp]
      simpa using hx2
  | list env =>
    rcases step_list env h with ⟨_, rfl, rfl⟩ | ⟨x, _, rfl, rfl⟩
    · exact hi
    · show Inv net gai _ l
      by_cases hx : x.adr.head? = some 1
      · rw [if_pos hx]; exact hi
      · rw [if_neg hx]
        refine ⟨hi.sep, hi.nz, hi.has, hi.src, ?_, hi.kind⟩
        intro a ha
        rcases List.mem_cons.mp ha with rfl | ha
        · exact hx
        · exact hi.ling a ha
  | trace opt =>
    obtain ⟨rfl, ⟨_, rfl⟩ | ⟨x, _, rfl⟩⟩ := step_trace opt h
    · exact hi
    · exact hi
  | forget =>
    cases h
    exact ⟨hi.sep, hi.nz, hi.has, hi.src, fun _ h => absurd h List.not_mem_nil, hi.kind⟩

theorem inv_run (hn : NetOk net) : ∀ (es : List Ev) (s s' : Sys) (l : List Ev) (h : List (Ev × Out)), Inv net gai s l → run net gai s es = .ok (s', h) → Inv net gai s' (h.foldl note l)
  | [], s, s', l, h, hi, hr => by cases hr; exact hi
  | e :: es, s, s', l, h, hi, hr => by
    unfold run at hr
    cases hs : step net gai s e with
    | ok r =>
      obtain ⟨s1, o⟩ := r
      rw [hs] at hr
      simp only [Res.ok_bind] at hr
      cases hr2 : run net gai s1 es with
      | ok r =>
        obtain ⟨s2, h2⟩ := r
        rw [hr2] at hr
        cases hr
        exact inv_run hn es s1 s2 _ h2 (inv_step hn hi hs) hr2
      | die => rw [hr2] at hr; cases hr
      | ub => rw [hr2] at hr; cases hr
      | hang => rw [hr2] at hr; cases hr
    | die => rw [hs] at hr; cases hr
    | ub => rw [hs] at hr; cases hr
    | hang => rw [hs] at hr; cases hr

theorem inv_alive (hn : NetOk net) {es : List Ev} {s : Sys} {h : List (Ev × Out)} (hr : run net gai empty es = .ok (s, h)) : Inv net gai s (alive h) :=
  inv_run hn es empty s [] h inv_empty hr

theorem pair_unique {net : Net} (hn : NetOk net) : ∀ (l : List Listener), l.Pairwise (fun x y => net.clash x.adr y.adr = false) → ∀ x ∈ l, ∀ y ∈ l, net.clash x.adr y.adr = true → x = y
  | [], _, x, hx => absurd hx List.not_mem_nil
  | z :: l, hp, x, hx => by
    intro y hy hc
    obtain ⟨h1, h2⟩ := List.pairwise_cons.mp hp
    rcases List.mem_cons.mp hx with rfl | hx
    · rcases List.mem_cons.mp hy with rfl | hy
      · rfl
      · rw [h1 y hy] at hc; cases hc
    · rcases List.mem_cons.mp hy with rfl | hy
      · rw [hn.symm] at hc; have := h1 x (by assumption); rw [this] at hc; cases hc
      · exact pair_unique hn l h2 x hx y hy hc

/-- A client that connects to an address that is bound reaches the socket with that address. -/
theorem connect_bound (hn : NetOk net) {s : Sys} {l : List Ev} (hi : Inv net gai s l) {t : Str} {x : Listener} (ha : address gai t = .ok x.adr) (hx : x ∈ s.bound) : connect net gai s t = .ok (some x) := by
  unfold connect
  rw [ha]
  dsimp only
  cases hf : s.bound.find? (fun l => net.reach x.adr l.adr) with
  | none =>
    have := List.find?_eq_none.mp hf x hx
    exact absurd (hn.reachSelf _ (hi.nz x hx)) this
  | some y =>
    have hy := List.mem_of_find?_eq_some hf
    have hr : net.reach x.adr y.adr = true := by have := List.find?_some hf; exact this
    rw [pair_unique hn s.bound hi.sep x hx y hy (hn.reachClash _ _ hr)]

/-- A start whose addresses are free and differ from each other. -/
theorem listen_free {s : Sys} {t : Str} {a : Adr} (ha : address gai t = .ok a) (hz : portZero a = false) (h : ∀ c ∈ s.inUse, net.clash a c = false) (pid : Nat) (role : Role) :
    listenAt net gai s t pid role = .ok (some { s with bound := ⟨a, pid, role⟩ :: s.bound }) := by
  unfold listenAt
  rw [ha]
  dsimp only
  rw [bind_free s a pid role hz h]

theorem listen_taken {s : Sys} {t : Str} {a c : Adr} (ha : address gai t = .ok a) (hz : portZero a = false) (hc : c ∈ s.inUse) (h : net.clash a c = true) (pid : Nat) (role : Role) :
    listenAt net gai s t pid role = .ok none := by
  unfold listenAt
  rw [ha]
  dsimp only
  rw [bind_taken s a c pid role hz hc h]

theorem lb_running {s s1 : Sys} {pid : Nat} {tr : Option Str} (h : startTrace net gai s pid tr = .ok (some s1)) : step net gai s (.lb pid tr) = .ok (s1, .running) := by
  unfold step
  dsimp only
  rw [h]
  rfl

theorem flowlb_running {s s1 s2 : Sys} {pid : Nat} {env : Option Str} {tr : Option Str} (h : startTrace net gai s pid tr = .ok (some s1)) (h2 : listenAt net gai s1 (flowText env) pid .flow = .ok (some s2)) :
    step net gai s (.flowlb pid env tr) = .ok (s2, .running) := by
  unfold step
  dsimp only
  rw [h]
  simp only [Res.ok_bind]
  rw [h2]
  rfl

theorem free_lb {s : Sys} {pid : Nat} {tr : Option Str} {a : Adr} (ha : address gai (traceText tr) = .ok a) (hz : portZero a = false) (h : ∀ c ∈ s.inUse, net.clash a c = false) :
    step net gai s (.lb pid tr) = .ok ({ s with bound := ⟨a, pid, .trace⟩ :: s.bound }, .running) :=
  lb_running (listen_free ha hz h pid .trace)

theorem free_flowlb {s : Sys} {pid : Nat} {env : Option Str} {tr : Option Str} {a b : Adr} (ha : address gai (traceText tr) = .ok a) (hz : portZero a = false)
    (h : ∀ c ∈ s.inUse, net.clash a c = false) (hb : address gai (flowText env) = .ok b) (hzb : portZero b = false) (h' : ∀ c ∈ s.inUse, net.clash b c = false) (hab : net.clash b a = false) :
    step net gai s (.flowlb pid env tr) = .ok ({ s with bound := ⟨b, pid, .flow⟩ :: ⟨a, pid, .trace⟩ :: s.bound }, .running) := by
  refine flowlb_running (s1 := { s with bound := ⟨a, pid, .trace⟩ :: s.bound }) (listen_free ha hz h pid .trace) ?_
  rw [listen_free hb hzb]
  intro c hc
  rcases List.mem_cons.mp (show c ∈ a :: s.inUse from hc) with rfl | hc
  · exact hab
  · exact h' c hc

theorem head_nz {a : Adr} (h : a.head? = some 1) : portZero a = false := by simp [portZero, h]

/-- What running processes leave free for unix sockets. -/
theorem unix_free (hn : NetOk net) {s : Sys} {l : List Ev} (hi : Inv net gai s l) {a : Adr} (ha : a.head? = some 1) (h : ∀ e ∈ l, ∀ w ∈ wants e, address gai w.2 ≠ .ok a) : ∀ c ∈ s.inUse, net.clash a c = false := by
  intro c hc
  cases hcc : net.clash a c with
  | false => rfl
  | true =>
    have e := hn.unix a c ha hcc
    subst e
    rcases List.mem_append.mp hc with hc | hc
    · obtain ⟨x, hx, rfl⟩ := List.mem_map.mp hc
      obtain ⟨e, he, _, t, a', hw, hat, hh, hz⟩ := hi.src x hx
      rw [hz (head_nz (hh ▸ ha))] at h
      exact absurd hat (h e he _ hw)
    · exact absurd ha (hi.ling _ hc)

/-! ### Addresses -/

theorem address_unix (gai : Gai) (n : Str) (hn : n.length ≤ 106) : address gai ("unix:".toList ++ n) = .ok ([1, 0, 0] ++ n.map (fun c => UInt8.ofNat c.toNat)) := by
  unfold address
  rw [show "unix:".toList = ['u', 'n', 'i', 'x', ':'] from rfl, parse_unix]
  unfold parseUnix
  rw [if_pos (by omega), copyTo_ok _ _ (by simp; omega)]
  simp only [Res.ok_bind, Res.pure_eq]
  unfold readN
  rw [if_pos (by simp; omega)]
  rw [List.drop_zero]
  have e : (List.map some ([1, 0, 0] ++ List.map (fun c : Char => UInt8.ofNat c.toNat) n ++ [0]) ++ List.drop ([1, 0, 0] ++ List.map (fun c : Char => UInt8.ofNat c.toNat) n ++ [0]).length (List.replicate 128 (none : Option UInt8)))
      = List.map some ([1, 0, 0] ++ List.map (fun c : Char => UInt8.ofNat c.toNat) n) ++ (some 0 :: List.drop ([1, 0, 0] ++ List.map (fun c : Char => UInt8.ofNat c.toNat) n ++ [0]).length (List.replicate 128 none)) := by
    rw [List.map_append, List.append_assoc]; rfl
  rw [e, List.take_append_of_le_length (by simp; omega), List.take_of_length_le (by simp; omega), mapM_some]

theorem address_tcp (gai : Gai) (hg : Spec.Adr.GaiOk gai) (h : Spec.Adr.Host) (hw : h.WF) (p : Nat) (hp : p ≤ 65535) :
    address gai ("tcp:".toList ++ Spec.Adr.hostPort h p) = .ok (h.sock p).bytes := by
  unfold address
  rw [show "tcp:".toList = ['t', 'c', 'p', ':'] from rfl, parse_tcp, parseTcp_host gai hg _ h hw p hp (split_host h hw p) _ (by simp)]
  simp only [Res.ok_bind]
  have hl := sock_len h hw p
  unfold readN
  rw [if_pos (by simp), List.drop_zero, List.take_append_of_le_length (by simp), List.take_of_length_le (by simp), mapM_some]

theorem port_zero (h : Spec.Adr.Host) (p : Nat) (hp : p ≤ 65535) : portZero (h.sock p).bytes = decide (p = 0) := by
  have key : (UInt8.ofNat (p / 256) = 0 ∧ UInt8.ofNat (p % 256) = 0) ↔ p = 0 := by
    constructor
    · rintro ⟨h1, h2⟩
      have a := congrArg UInt8.toNat h1
      have b := congrArg UInt8.toNat h2
      rw [UInt8.toNat_ofNat'] at a b
      simp at a b
      omega
    · rintro rfl; decide
  cases h <;> (simp only [Spec.Adr.Host.sock, Sock.bytes, portZero, Spec.Adr.portBytes]; by_cases h0 : p = 0 <;> simp [h0])
  all_goals (intro a b; exact h0 (key.mp ⟨a, b⟩))

theorem plain_ok : NetOk plain where
  self a _ := by simp [plain]
  symm a b := by simp only [plain]; exact Bool.beq_comm
  reachSelf a h := by simp [plain, h]
  reachClash a b h := by simp only [plain, Bool.and_eq_true] at h ⊢; exact h.1
  zero a b h := by simp [plain, h]
  unix a b _ h := by simpa [plain] using h
  pick l a b h := by
    have := List.find?_some h
    simp only [Bool.and_eq_true, Bool.not_eq_true', beq_iff_eq] at this
    refine ⟨this.1.2, this.1.1, fun c hc => ?_⟩
    cases e : plain.clash b c with
    | false => rfl
    | true =>
      have e' : b = c := by simpa [plain] using e
      subst e'
      have h2 := this.2
      rw [List.contains_iff_mem.mpr hc] at h2
      cases h2

end Nfqlb.Sock
