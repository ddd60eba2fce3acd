import Verif.Spec.Start
import Verif.Proof.Server
import Verif.Proof.FragRuns
import Verif.Proof.RangeText
import Verif.Proof.Addr
import Verif.Proof.ItemPool

/-! Lemmas about the start of `nfqlb lb` and `nfqlb flowlb`. -/

set_option autoImplicit false

namespace Nfqlb.Start

open Nfqlb

/-! ### Numbers -/

theorem atoi_range (s : List Char) : -2147483648 ≤ Remote.atoi s ∧ Remote.atoi s ≤ 2147483647 := by
  unfold Remote.atoi
  dsimp only
  generalize (if (List.dropWhile CText.isSpace s).head? == some '-' then _ else _ : Int) = v
  split <;> omega

theorem uns_nonneg {x : Int} (h0 : 0 ≤ x) (h1 : x ≤ 2147483647) : (uns x : Int) = x := by
  unfold uns
  omega

theorem uns_lt (x : Int) : uns x < 4294967296 := by
  unfold uns
  omega

theorem num_ok {vars : List Cmd.Opt} {name : String} {x : Int} (h : num vars name = .ok x) : ∃ t, Cmd.valueOf vars name.toList = some t ∧ x = Remote.atoi t := by
  unfold num at h
  split at h
  · cases h
  · rename_i t ht
    cases h
    exact ⟨t, ht, rfl⟩

theorem num_text {vars : List Cmd.Opt} {name : String} (h : ∃ t, Cmd.valueOf vars name.toList = some t) : ∃ x, num vars name = .ok x := by
  obtain ⟨t, ht⟩ := h
  exact ⟨Remote.atoi t, by unfold num; rw [ht]⟩

/-! ### The queues -/

theorem scanRange_digits (a b : Nat) (ha : a ≤ 4294967295) (hb : b ≤ 4294967295) : scanRange (Nat.toDigits 10 a ++ ':' :: Nat.toDigits 10 b) = some (a, b) := by
  unfold scanRange
  rw [RS.scanU_digits a ha _ (by intro c hc; simp at hc; subst hc; rfl)]
  have h := RS.scanU_digits b hb [] (by simp)
  rw [List.append_nil] at h
  simp only [h]

theorem colon_not_digits (n : Nat) : ':' ∉ Nat.toDigits 10 n := by
  intro h
  have := RS.digits_isDigit h
  simp at this

theorem queues_cases (thread : Nat → Bool) (qnum : Str) : queues thread qnum = .die ∨ ∃ qs, queues thread qnum = .ok qs ∧ qs ≠ [] := by
  unfold queues
  split
  · split
    · exact .inl rfl
    · split
      · exact .inl rfl
      · split
        · exact .inr ⟨_, rfl, by simp⟩
        · exact .inl rfl
  · exact .inr ⟨_, rfl, by simp⟩

/-! ### The tun device -/

theorem openTun_ok {k : Dev} {tun : Option Str} {mtu : Int} {r : Option Nat} (h : openTun k tun mtu = .ok r) (hm : 0 ≤ mtu) :
    (tun = none ∧ r = none) ∨ ∃ name fd sock m, tun = some name ∧ r = some fd ∧ k.opened = some fd ∧ k.setIff (strncpyName name) = true ∧ k.socket = some sock ∧ name.length ≤ 15 ∧
      k.mtuOf (name ++ List.replicate (16 - name.length) '\x00') = some m ∧ mtu ≤ m := by
  unfold openTun at h
  cases tun with
  | none => cases h; exact .inl ⟨rfl, rfl⟩
  | some name =>
    right
    dsimp only at h
    cases ho : k.opened with
    | none => simp only [tunAlloc, ho] at h; rw [if_pos (by decide)] at h; cases h
    | some fd =>
      cases hs : k.setIff (strncpyName name) with
      | false => simp only [tunAlloc, ho, hs, if_true] at h; rw [if_pos (by decide)] at h; cases h
      | true =>
        simp only [tunAlloc, ho, hs, Bool.true_eq_false, if_false] at h
        rw [if_neg (by omega)] at h
        obtain ⟨x, hx, h⟩ := Server.bind_ok h
        unfold getMtu at hx
        cases hk : k.socket with
        | none => simp only [hk] at hx; cases hx; dsimp only at h; rw [if_pos (by omega)] at h; cases h
        | some sock =>
          simp only [hk] at hx
          split at hx
          · cases hx
          · rename_i hl
            split at hx
            · cases hx; dsimp only at h; rw [if_pos (by omega)] at h; cases h
            · rename_i m hmm
              cases hx
              dsimp only at h
              split at h
              · cases h
              · rename_i hle
                cases h
                refine ⟨name, fd, sock, m, rfl, rfl, rfl, hs, rfl, ?_, hmm, by omega⟩
                unfold ifNameSize at hl
                omega

theorem openTun_cases (k : Dev) (tun : Option Str) (mtu : Int) (h : ∀ n, tun = some n → n.length ≤ 15) : openTun k tun mtu = .die ∨ ∃ r, openTun k tun mtu = .ok r := by
  unfold openTun
  cases tun with
  | none => exact .inr ⟨_, rfl⟩
  | some name =>
    dsimp only
    have hl := h name rfl
    generalize tunAlloc k (some name) [] = p
    split
    · exact .inl rfl
    · have hg : ∃ m f, getMtu k name p.2 = .ok (m, f) := by
        unfold getMtu
        split
        · exact ⟨_, _, rfl⟩
        · rw [if_neg (by unfold ifNameSize; omega)]
          split
          · exact ⟨_, _, rfl⟩
          · exact ⟨_, _, rfl⟩
      obtain ⟨m, f, hg⟩ := hg
      rw [hg, Res.ok_bind]
      dsimp only
      split
      · exact .inl rfl
      · exact .inr ⟨_, rfl⟩

/-! ### The start -/

/-- What `start` has done when it succeeds. -/
theorem start_ok {flow : Bool} {e : Env} {vars : List Cmd.Opt} {s : Started} (h : start flow e vars = .ok s) :
    ∃ nt nl mtu ue hm inj hs bk fr tt re ql q, num vars "notargets_fwmark" = .ok nt ∧ numIf flow vars "nolb_fwmark" (-1) = .ok nl ∧ num vars "mtu" = .ok mtu ∧ 576 ≤ mtu ∧
      numIf (!flow) vars "sctp_encap" 0 = .ok ue ∧ num vars "hash_mode" = .ok hm ∧ openTun e.dev (Cmd.valueOf vars "tun".toList) mtu = .ok inj ∧
      num vars "ft_size" = .ok hs ∧ num vars "ft_buckets" = .ok bk ∧ numIf inj.isSome vars "ft_frag" 0 = .ok fr ∧ num vars "ft_ttl" = .ok tt ∧
      num vars "reassembler" = .ok re ∧ num vars "qlength" = .ok ql ∧ Cmd.valueOf vars "queue".toList = some q ∧ makePools e s = .ok () ∧ queues e.thread q = .ok s.queues ∧
      s = ⟨nt, nl, uns ue, uns hm, flow && (Cmd.valueOf vars "promiscuous_ping".toList).isNone, uns mtu, inj, uns hs, uns bk, uns fr, uns tt,
        if re > 0 then some (uns re) else none, uns ql, s.queues⟩ := by
  unfold start at h
  obtain ⟨nt, h1, h⟩ := Server.bind_ok h
  obtain ⟨nl, h2, h⟩ := Server.bind_ok h
  obtain ⟨mtu, h3, h⟩ := Server.bind_ok h
  split at h
  · cases h
  rename_i hmtu
  obtain ⟨ue, h4, h⟩ := Server.bind_ok h
  obtain ⟨hm, h5, h⟩ := Server.bind_ok h
  obtain ⟨inj, h6, h⟩ := Server.bind_ok h
  obtain ⟨hs, h7, h⟩ := Server.bind_ok h
  obtain ⟨bk, h8, h⟩ := Server.bind_ok h
  obtain ⟨fr, h9, h⟩ := Server.bind_ok h
  obtain ⟨tt, h10, h⟩ := Server.bind_ok h
  obtain ⟨re, h11, h⟩ := Server.bind_ok h
  obtain ⟨ql, h12, h⟩ := Server.bind_ok h
  obtain ⟨_, h13, h⟩ := Server.bind_ok h
  split at h
  · cases h
  rename_i q hq
  obtain ⟨qs, h14, h⟩ := Server.bind_ok h
  cases h
  exact ⟨nt, nl, mtu, ue, hm, inj, hs, bk, fr, tt, re, ql, q, h1, h2, h3, by omega, h4, h5, h6, h7, h8, h9, h10, h11, h12, hq, h13, h14, rfl⟩

theorem startArgv_ok {flow : Bool} {e : Env} {argv : List Str} {s : Started} (h : startArgv flow e argv = .ok s) :
    ∃ vars n, Cmd.parseOrDie (if flow then Cmd.flowLbOpts else Cmd.lbOpts) argv = .ok (vars, n) ∧ start flow e vars = .ok s := by
  unfold startArgv at h
  obtain ⟨⟨vars, n⟩, h1, h2⟩ := Server.bind_ok h
  exact ⟨vars, n, h1, h2⟩

/-- The options that the start needs. -/
def startUses (flow : Bool) : List String :=
  ["notargets_fwmark", "mtu", "hash_mode", "ft_size", "ft_buckets", "ft_frag", "ft_ttl", "reassembler", "qlength", "queue"] ++ if flow then ["nolb_fwmark"] else ["sctp_encap"]

theorem pool_ok {n size : Nat} (h : n * (24 + size) < 2 ^ 32) : ∃ x, Pool.create n size true true = .ok x := by
  by_cases h0 : n = 0
  · subst h0; exact ⟨_, rfl⟩
  · have h1 : 24 + size < 2 ^ 32 := Nat.lt_of_le_of_lt (Nat.le_mul_of_pos_left _ (Nat.pos_of_ne_zero h0)) h
    have hr : u32 (Pool.sizeofItem + size) = 24 + size := by
      unfold u32 Pool.sizeofItem
      exact Nat.mod_eq_of_lt h1
    unfold Pool.create
    rw [if_neg (by decide), if_neg h0]
    dsimp only
    rw [if_neg (by decide), hr, if_neg]
    · exact ⟨_, rfl⟩
    · unfold u32
      rw [Nat.mod_eq_of_lt (b := 4294967296) h]
      have : n * (24 + size) = (n - 1) * (24 + size) + (24 + size) := by
        rw [← Nat.succ_mul]
        congr 1
        omega
      unfold Pool.sizeofItem
      omega

theorem makePools_ok (e : Env) (s : Started) (h1 : s.buckets * (24 + e.sizeofBucket) < 2 ^ 32) (h2 : s.frags * (24 + s.mtu) < 2 ^ 32) (h3 : (s.hsize + s.buckets) * (24 + e.sizeofFragData) < 2 ^ 32)
    (h4 : ∀ n, s.reass = some n → n * (24 + e.sizeofHole) < 2 ^ 32) : makePools e s = .ok () := by
  unfold makePools
  obtain ⟨x1, e1⟩ := pool_ok h1
  obtain ⟨x2, e2⟩ := pool_ok h2
  have hu : u32 (s.hsize + s.buckets) = s.hsize + s.buckets := by
    unfold u32
    exact Nat.mod_eq_of_lt (Nat.lt_of_le_of_lt (Nat.le_mul_of_pos_right _ (by omega)) h3)
  obtain ⟨x3, e3⟩ := pool_ok h3
  rw [e1, Res.ok_bind, e2, Res.ok_bind, hu, e3, Res.ok_bind]
  cases hr : s.reass with
  | none => rfl
  | some n =>
    obtain ⟨x4, e4⟩ := pool_ok (h4 n hr)
    dsimp only
    rw [e4]
    rfl

theorem num_given {vars : List Cmd.Opt} {name : String} {n : Nat} (h : Spec.Start.Given vars name n) : num vars name = .ok (n : Int) := by
  unfold num
  rw [h.1]
  dsimp only
  rw [Addr.atoi_digits n h.2]

theorem uns_nat {n : Nat} (h : n ≤ 2147483647) : uns (n : Int) = n := by
  unfold uns
  omega

theorem start_cases (flow : Bool) (e : Env) (vars : List Cmd.Opt) (hv : ∀ name ∈ startUses flow, ∃ v, Cmd.valueOf vars name.toList = some v) (hz : Spec.Start.Sized e vars) :
    start flow e vars = .die ∨ ∃ s, start flow e vars = .ok s := by
  obtain ⟨ht, size, buckets, frags, mtu, reass, g1, g2, g3, g4, g5, z1, z2, z3, z4⟩ := hz
  obtain ⟨nt, k1⟩ := num_text (hv "notargets_fwmark" (by simp [startUses]))
  obtain ⟨hm, k2⟩ := num_text (hv "hash_mode" (by simp [startUses]))
  obtain ⟨tt, k3⟩ := num_text (hv "ft_ttl" (by simp [startUses]))
  obtain ⟨ql, k4⟩ := num_text (hv "qlength" (by simp [startUses]))
  obtain ⟨q, k5⟩ := hv "queue" (by simp [startUses])
  have k6 : ∃ x, numIf flow vars "nolb_fwmark" (-1) = .ok x := by
    cases flow with
    | false => exact ⟨_, rfl⟩
    | true => exact num_text (hv "nolb_fwmark" (by simp [startUses]))
  have k7 : ∃ x, numIf (!flow) vars "sctp_encap" 0 = .ok x := by
    cases flow with
    | true => exact ⟨_, rfl⟩
    | false => exact num_text (hv "sctp_encap" (by simp [startUses]))
  obtain ⟨nl, k6⟩ := k6
  obtain ⟨ue, k7⟩ := k7
  unfold start
  rw [k1, Res.ok_bind, k6, Res.ok_bind, num_given g4, Res.ok_bind]
  by_cases hmtu : (mtu : Int) < 576
  · rw [if_pos hmtu]; exact .inl rfl
  rw [if_neg hmtu, k7, Res.ok_bind, k2, Res.ok_bind]
  rcases openTun_cases e.dev (Cmd.valueOf vars "tun".toList) mtu ht with ho | ⟨inj, ho⟩
  · rw [ho]; exact .inl rfl
  have k8 : ∃ x : Nat, numIf inj.isSome vars "ft_frag" 0 = .ok (x : Int) ∧ x ≤ frags := by
    cases inj with
    | none => exact ⟨0, rfl, Nat.zero_le _⟩
    | some _ => exact ⟨frags, num_given g3, Nat.le_refl _⟩
  obtain ⟨fr, k8, hfr⟩ := k8
  rw [ho, Res.ok_bind, num_given g1, Res.ok_bind, num_given g2, Res.ok_bind, k8, Res.ok_bind, k3, Res.ok_bind, num_given g5, Res.ok_bind, k4, Res.ok_bind]
  dsimp only
  rw [makePools_ok, Res.ok_bind, k5]
  · dsimp only
    rcases queues_cases e.thread q with hq | ⟨qs, hq, _⟩
    · rw [hq]; exact .inl rfl
    · rw [hq]; exact .inr ⟨_, rfl⟩
  · dsimp only
    rw [uns_nat g2.2]; exact z1
  · dsimp only
    rw [uns_nat g4.2, uns_nat (Nat.le_trans hfr g3.2)]
    exact Nat.lt_of_le_of_lt (Nat.mul_le_mul_right _ hfr) z2
  · dsimp only
    rw [uns_nat g1.2, uns_nat g2.2]; exact z3
  · dsimp only
    intro n hn
    rw [uns_nat g5.2] at hn
    split at hn
    · cases hn; exact z4
    · cases hn

/-! ### A table without memory for fragments -/

open Nfqlb.Frag Nfqlb.Spec.Frag

theorem view_no_room {N MB T t : Nat} {ft : Ft} (i : FInv N MB 0 T ft t 0) {k : Key} {n : Nat} {e : Entry} (h : view ft n k = some e) : e.stored = [] := by
  unfold view at h
  cases hl : Ct.liveT ft.ct n k with
  | none => rw [hl] at h; cases h
  | some s =>
    rw [hl] at h
    cases h
    have hv : s.data ∈ Ct.vals ft.ct := Ct.mem_vals.2 ⟨s, (Ct.stored_of_live hl).1, rfl⟩
    have h0 : (storedAll ft).length = 0 := by
      rw [storedAll_length]
      have := i.frags
      omega
    have h1 : storedAll ft = [] := List.eq_nil_of_length_eq_zero h0
    unfold storedAll at h1
    rw [List.flatMap_eq_nil_iff] at h1
    exact h1 _ hv

theorem step_no_room {N MB T : Nat} {ft ft' : Ft} {t : Nat} {op : Op} {out : Out} (i : FInv N MB 0 T ft t 0) (st : Step N MB 0 T ft ft' op out) (hs : step ft op = .ok (ft', out)) :
    out.rc ≠ 1 ∧ out.injected = [] := by
  cases hk : keyOf op with
  | none =>
    cases op with
    | stats now => cases hs; exact ⟨by decide, rfl⟩
    | _ => cases hk
  | some k =>
    have hself := st.self k hk
    generalize ha : view ft (timeOf op) k = a at hself
    generalize hb : view ft' (timeOf op) k = b at hself
    cases hself <;> try (refine ⟨?_, rfl⟩; intro h; simp at h; done)
    · rename_i e _ hB
      refine ⟨fun h => by simp at h, ?_⟩
      rcases hB with h | ⟨_, _, h, _⟩
      · exact view_no_room i (ha.trans h)
      · exact h
    · have := view_no_room st.inv hb
      simp at this

theorem run_no_room {N MB T : Nat} : ∀ (ops : List Op) {ft ft' : Ft} {t : Nat} {outs : List Out}, FInv N MB 0 T ft t 0 → Timed t ops → run ft ops = .ok (ft', outs) →
    ∀ o ∈ outs, o.rc ≠ 1 ∧ o.injected = []
  | [], ft, ft', t, outs, _, _, h => by cases h; simp
  | op :: os, ft, ft', t, outs, i, ht, h => by
    obtain ⟨h1, h2, h3⟩ := ht
    obtain ⟨ft1, out, hs, st⟩ := step_all i op h1
    obtain ⟨rs, e1, e2⟩ := run_cons hs h
    subst e1
    intro o ho
    rcases List.mem_cons.1 ho with rfl | ho
    · exact step_no_room i st hs
    · exact run_no_room os st.inv h3 e2 o ho

/-- A fragment that is stored is not larger than the memory for it. -/
theorem run_fits {N MB MF T : Nat} : ∀ (ops : List Op) {ft ft' : Ft} {t : Nat} {outs : List Out}, FInv N MB MF T ft t 0 → Timed t ops → run ft ops = .ok (ft', outs) →
    ∀ now k id len nok rc o, ((Op.frag now k id len nok rc, o) : Op × Out) ∈ ops.zip outs → o.rc = 1 → len ≤ ft.mtu
  | [], ft, ft', t, outs, _, _, h => by cases h; simp
  | op :: os, ft, ft', t, outs, i, ht, h => by
    obtain ⟨h1, h2, h3⟩ := ht
    obtain ⟨ft1, out, hs, st⟩ := step_all i op h1
    obtain ⟨rs, e1, e2⟩ := run_cons hs h
    subst e1
    intro now k id len nok rc o ho hr
    rw [List.zip_cons_cons] at ho
    rcases List.mem_cons.1 ho with ho | ho
    · cases ho
      have hself := st.self k rfl
      generalize view ft _ k = a at hself
      generalize view ft1 _ k = b at hself
      cases hself <;> first | assumption | simp at hr
    · have := run_fits os st.inv h3 e2 now k id len nok rc o ho hr
      rwa [st.mtu] at this

end Nfqlb.Start
