import Verif.Spec.QueueSetup
import Verif.Props.NlMsg
import Verif.Props.Start

/-! C100: all queues that were asked for are set up, however the threads overlap. -/

set_option autoImplicit false

namespace Nfqlb.Props

open Nfqlb Nfqlb.Nl Nfqlb.Spec.Nl

/-! ### Messages about different queues -/

theorem shuffle_mem {α : Type} {ls : List (List α)} {l : List α} (h : Shuffle ls l) : ∀ a ∈ l, ∃ x ∈ ls, a ∈ x := by
  induction h with
  | done _ => intro a h; cases h
  | @pick ls l i a r hi _ ih =>
    intro b hb
    have hm : (a :: r) ∈ ls := List.mem_of_getElem? hi
    rcases List.mem_cons.1 hb with rfl | hb
    · exact ⟨_, hm, List.mem_cons_self⟩
    · obtain ⟨x, hx, hbx⟩ := ih b hb
      rcases List.mem_or_eq_of_mem_set hx with hx | rfl
      · exact ⟨x, hx, hbx⟩
      · exact ⟨_, hm, List.mem_cons_of_mem _ hbx⟩

theorem foldl_id {α β : Type} (f : β → α → β) : ∀ (l : List α) (x : β), (∀ a ∈ l, ∀ y, f y a = y) → l.foldl f x = x
  | [], _, _ => rfl
  | a :: l, x, h => by
    rw [List.foldl_cons, h a List.mem_cons_self]
    exact foldl_id f l x (fun b hb => h b (List.mem_cons_of_mem _ hb))

/-- If all but one of the lists have no effect, the effect is that of the one. -/
theorem shuffle_fold {α β : Type} (f : β → α → β) {ls : List (List α)} {l : List α} (h : Shuffle ls l) (i : Nat) :
    (∀ (j : Nat) (x : List α), j ≠ i → ls[j]? = some x → ∀ a ∈ x, ∀ y, f y a = y) → ∀ (x : List α) (y : β), ls[i]? = some x → l.foldl f y = x.foldl f y := by
  induction h with
  | done hn =>
    intro _ x y hx
    rw [hn x (List.mem_of_getElem? hx)]
  | @pick ls l j a r hj _ ih =>
    intro hid x y hx
    have hjl : j < ls.length := (List.getElem?_eq_some_iff.1 hj).1
    have hid' : ∀ (k : Nat) (z : List α), k ≠ i → (ls.set j r)[k]? = some z → ∀ a ∈ z, ∀ y, f y a = y := by
      intro k z hk hz b hb
      by_cases hkj : j = k
      · subst hkj
        rw [List.getElem?_set_self hjl] at hz
        cases hz
        exact hid j _ hk hj b (List.mem_cons_of_mem _ hb)
      · rw [List.getElem?_set_ne hkj] at hz
        exact hid k z hk hz b hb
    rw [List.foldl_cons]
    by_cases hji : j = i
    · subst hji
      rw [hj] at hx
      cases hx
      exact ih hid' r (f y a) (List.getElem?_set_self hjl)
    · rw [hid j _ hji hj a List.mem_cons_self]
      exact ih hid' x y (by rw [List.getElem?_set_ne hji]; exact hx)

/-- What a message does to a queue. -/
def act (r : Nat) (x : Option Queue) (bs : List UInt8) : Option Queue :=
  match read bs with
  | none => x
  | some m => config (fun _ => x) m r

theorem config_local (k : Kernel) (m : Msg) (r : Nat) : config k m r = config (fun _ => k r) m r := by
  unfold config
  by_cases ht : m.type ≠ 2
  · rw [if_pos ht, if_pos ht]
  · rw [if_neg ht, if_neg ht]
    dsimp only
    cases m.attrs.lookup 1 with
    | none => rfl
    | some l =>
      cases l with
      | nil => rfl
      | cons c l =>
        dsimp only
        by_cases h1 : c = 1
        · rw [if_pos h1, if_pos h1]
        · rw [if_neg h1, if_neg h1]
          by_cases h2 : c = 2
          · rw [if_pos h2, if_pos h2]
          · rw [if_neg h2, if_neg h2]

theorem config_other (k : Kernel) (m : Msg) (r : Nat) (h : r ≠ m.queue) : config k m r = k r := by
  unfold config
  by_cases ht : m.type ≠ 2
  · rw [if_pos ht]
  · rw [if_neg ht, if_neg h]
    cases m.attrs.lookup 1 with
    | none => rfl
    | some l =>
      cases l with
      | nil => rfl
      | cons c l =>
        dsimp only
        by_cases h1 : c = 1
        · rw [if_pos h1, if_neg (fun x => h x.1)]
        · rw [if_neg h1]
          by_cases h2 : c = 2
          · rw [if_pos h2, if_neg h]
          · rw [if_neg h2]

theorem configAll_fold : ∀ (l : List (List UInt8)) (k : Kernel), (∀ bs ∈ l, read bs ≠ none) → configAll k l = some (fun r => l.foldl (act r) (k r))
  | [], _, _ => rfl
  | bs :: l, k, h => by
    cases hr : read bs with
    | none => exact absurd hr (h bs List.mem_cons_self)
    | some m =>
      have hs : ∀ r, act r (k r) bs = config k m r := by
        intro r
        unfold act
        rw [hr]
        exact (config_local k m r).symm
      simp only [configAll, hr, Option.bind_some, List.foldl_cons]
      rw [configAll_fold l _ (fun b hb => h b (List.mem_cons_of_mem _ hb))]
      congr 1
      funext r
      rw [hs]

/-- What a thread sends has no effect on other queues, and each message can be read. -/
theorem setup_other (env : Env) (hp : 4096 ≤ env.page) (he : AllOk env) (q n mtu : Nat) :
    ∀ bs ∈ (setup env true q n mtu).1, read bs ≠ none ∧ ∀ r, r ≠ q % 65536 → ∀ x, act r x bs = x := by
  obtain ⟨h1, h2, h3, h4⟩ := he
  obtain ⟨b0, b1, b2, b3, b4, e, r0, r1, r2, r3, r4⟩ := setup_msgs (sizeofBuf env.page mtu) q n mtu (bufSize_half hp mtu)
  have hs : (setup env true q n mtu).1 = [b0, b1, b2, b3, b4] := by
    unfold setup
    rw [if_neg (by simp [h1, h2, h3]), e]
    simp only [sendAll, h4 0 (by omega), h4 1 (by omega), h4 2 (by omega), h4 3 (by omega), h4 4 (by omega), Bool.true_eq_false, if_false, Nat.reduceAdd]
  rw [hs]
  intro bs hb
  have other : ∀ m : Msg, read bs = some m → m.queue = q % 65536 → read bs ≠ none ∧ ∀ r, r ≠ q % 65536 → ∀ x, act r x bs = x := by
    intro m hm hq
    refine ⟨by rw [hm]; simp, fun r hr x => ?_⟩
    unfold act
    rw [hm]
    exact config_other _ m r (by rw [hq]; exact hr)
  have pf : ∀ c : UInt8, c ≠ 1 ∧ c ≠ 2 → read bs = some ⟨2, 0, [(1, [c, 0] ++ be16 2)]⟩ → read bs ≠ none ∧ ∀ r, r ≠ q % 65536 → ∀ x, act r x bs = x := by
    intro c hc hm
    refine ⟨by rw [hm]; simp, fun r _ x => ?_⟩
    unfold act
    rw [hm]
    dsimp only
    rw [config_cmd _ 0 c hc]
  simp only [List.mem_cons, List.not_mem_nil, or_false] at hb
  rcases hb with rfl | rfl | rfl | rfl | rfl
  · exact pf 4 (by decide) r0
  · exact pf 3 (by decide) r1
  · exact other _ r2 rfl
  · exact other _ r3 rfl
  · exact other _ r4 rfl

/-- **C87** for all numbers of queues: it is the number modulo 65536 that is set up. -/
theorem C87_setup_exact (env : Env) (hp : 4096 ≤ env.page) (he : AllOk env) (q n mtu : Nat) (hn : n < 4294967296) (hm : mtu < 4294967296) (k : Kernel) (hk : k (q % 65536) = none) :
    configAll k (setup env true q n mtu).1 = some (fun r => if r = q % 65536 then some ⟨2, Nfq.copyRange mtu, n, 4⟩ else k r) := by
  have e : setup env true q n mtu = setup env true (q % 65536) n mtu := by
    have hb : be16 q = be16 (q % 65536) := by
      have h1 : UInt8.ofNat (q / 256) = UInt8.ofNat (q % 65536 / 256) := UInt8.toNat_inj.1 (by rw [UInt8.toNat_ofNat', UInt8.toNat_ofNat']; omega)
      have h2 : UInt8.ofNat q = UInt8.ofNat (q % 65536) := UInt8.toNat_inj.1 (by rw [UInt8.toNat_ofNat', UInt8.toNat_ofNat']; omega)
      unfold be16
      rw [h1, ← h2]
    unfold setup setupMsgs cmdMsg paramsMsg maxlenMsg hdrPut
    rw [hb]
  rw [e]
  exact (C87_setup_partial env hp he (q % 65536) n mtu (Nat.mod_lt _ (by omega)) hn hm k hk).1

example : (setup okEnv true 65538 7 1500).1 = (setup okEnv true 2 7 1500).1 := by decide +kernel

/-- **C100**: any number of threads set up a queue each, at the same time, with messages in any order between the threads. If the numbers are different modulo 65536 and these queues are free, the kernel then has exactly these queues beside
those that it had, each as C87 says. -/
theorem C100_threads (env : Nat → Env) (hp : ∀ q, 4096 ≤ (env q).page) (he : ∀ q, AllOk (env q)) (qs : List Nat) (hd : (qs.map Start.bound).Nodup) (n mtu : Nat) (hn : n < 4294967296) (hm : mtu < 4294967296)
    (k : Kernel) (hk : ∀ q ∈ qs, k (Start.bound q) = none) (l : List (List UInt8)) (hl : Shuffle (qs.map (fun q => (setup (env q) true q n mtu).1)) l) :
    configAll k l = some (fun r => if r ∈ qs.map Start.bound then some ⟨2, Nfq.copyRange mtu, n, 4⟩ else k r) := by
  have hread : ∀ bs ∈ l, read bs ≠ none := by
    intro bs hb
    obtain ⟨x, hx, hbx⟩ := shuffle_mem hl bs hb
    obtain ⟨q, -, rfl⟩ := List.mem_map.1 hx
    exact (setup_other (env q) (hp q) (he q) q n mtu bs hbx).1
  rw [configAll_fold l k hread]
  congr 1
  funext r
  by_cases hr : r ∈ qs.map Start.bound
  · rw [if_pos hr]
    obtain ⟨i, hi⟩ := List.getElem?_of_mem hr
    rw [List.getElem?_map] at hi
    cases hq : qs[i]? with
    | none => rw [hq] at hi; cases hi
    | some q =>
      rw [hq] at hi
      have hqr : q % 65536 = r := Option.some.inj hi
      have hmq : q ∈ qs := List.mem_of_getElem? hq
      have hf := shuffle_fold (act r) hl i ?_ (setup (env q) true q n mtu).1 (k r) (by rw [List.getElem?_map, hq]; rfl)
      · rw [hf]
        have h1 := C87_setup_exact (env q) (hp q) (he q) q n mtu hn hm k (hk q hmq)
        rw [configAll_fold _ k (fun bs hb => (setup_other (env q) (hp q) (he q) q n mtu bs hb).1)] at h1
        have h2 := congrFun (Option.some.inj h1) r
        rw [h2, if_pos hqr.symm]
      · intro j x hji hx a ha y
        rw [List.getElem?_map] at hx
        cases hq' : qs[j]? with
        | none => rw [hq'] at hx; cases hx
        | some q' =>
          rw [hq'] at hx
          cases hx
          refine (setup_other (env q') (hp q') (he q') q' n mtu a ha).2 r ?_ y
          intro hc
          apply hji
          have hjl : j < (qs.map Start.bound).length := by rw [List.length_map]; exact (List.getElem?_eq_some_iff.1 hq').1
          exact (List.getElem?_inj hjl hd).1 (by rw [List.getElem?_map, List.getElem?_map, hq, hq']; show some (q' % 65536) = some (q % 65536); rw [hqr, hc])
  · rw [if_neg hr]
    apply foldl_id
    intro bs hb y
    obtain ⟨x, hx, hbx⟩ := shuffle_mem hl bs hb
    obtain ⟨q, hq, rfl⟩ := List.mem_map.1 hx
    exact (setup_other (env q) (hp q) (he q) q n mtu bs hbx).2 r (fun hc => hr (List.mem_map.2 ⟨q, hq, hc.symm⟩)) y

/-- **C100**, from the command line to the kernel: with `--queue=a:b`, if all calls succeed and these queues are free, the kernel has exactly the queues from `a` to `b`, beside those that it had, whatever the order in which the threads run. -/
theorem C100_range (env : Nat → Env) (hp : ∀ q, 4096 ≤ (env q).page) (he : ∀ q, AllOk (env q)) (a b : Nat) (h1 : a ≤ b) (h2 : b ≤ 65535) (n mtu : Nat) (hn : n < 4294967296) (hm : mtu < 4294967296)
    (k : Kernel) (hk : ∀ q, a ≤ q → q ≤ b → k q = none) :
    ∃ qs, Start.queues (fun _ => true) (Nat.toDigits 10 a ++ ':' :: Nat.toDigits 10 b) = .ok qs ∧
      ∀ l, Shuffle (qs.map (fun q => (setup (env q) true q n mtu).1)) l → configAll k l = some (fun r => if a ≤ r ∧ r ≤ b then some ⟨2, Nfq.copyRange mtu, n, 4⟩ else k r) := by
  rcases C76_range (fun _ => true) a b h1 h2 with ⟨-, q, -, -, hf⟩ | ⟨-, qs, e1, e2, e3⟩
  · cases hf
  · refine ⟨qs, e1, fun l hl => ?_⟩
    rw [C100_threads env hp he qs e2 n mtu hn hm k (fun q hq => by
      have := (e3 (Start.bound q)).1 (List.mem_map.2 ⟨q, hq, rfl⟩)
      exact hk _ this.1 this.2) l hl]
    congr 1
    funext r
    by_cases hr : a ≤ r ∧ r ≤ b
    · rw [if_pos hr, if_pos ((e3 r).2 hr)]
    · rw [if_neg hr, if_neg (fun h => hr ((e3 r).1 h))]

/-- Two threads, the first messages of the second one between those of the first one. -/
example : Shuffle [[1, 2, 3], [4, 5]] [1, 4, 5, 2, 3] :=
  .pick 0 1 [2, 3] rfl (.pick 1 4 [5] rfl (.pick 1 5 [] rfl (.pick 0 2 [3] rfl (.pick 0 3 [] rfl (.done (by decide))))))

example : AllOk okEnv ∧ 4096 ≤ okEnv.page := by
  refine ⟨⟨rfl, rfl, rfl, fun _ _ => rfl⟩, by decide⟩

/-- A case: queues 2 and 3, the two threads send their messages in turn. -/
example : (do
    let k ← configAll (fun _ => none) (let x := (setup okEnv true 2 7 1500).1; let y := (setup okEnv true 3 7 1500).1; (x.zip y).flatMap (fun p => [p.1, p.2]))
    return (k 1, k 2, k 3, k 4)) = some (none, some ⟨2, 1500, 7, 4⟩, some ⟨2, 1500, 7, 4⟩, none) := by decide +kernel

end Nfqlb.Props
