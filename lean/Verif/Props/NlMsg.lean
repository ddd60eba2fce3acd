import Verif.Proof.NlMsg
import Verif.Model.Copy
import Verif.Props.Nfqueue
import Verif.Proof.Server

/-! C87: the netlink messages that set up a queue and those with verdicts. -/

set_option autoImplicit false

namespace Nfqlb.Props

open Nfqlb Nfqlb.Nl Nfqlb.Spec.Nl

/-- All calls of the set-up succeed. -/
def AllOk (env : Env) : Prop := env.openOk = true ∧ env.bindOk = true ∧ env.mallocOk = true ∧ ∀ i < 5, env.sendOk i = true

theorem bufSize_half {page : Nat} (h : 4096 ≤ page) (mtu : Nat) : 2048 ≤ sizeofBuf page mtu := by
  unfold sizeofBuf bufSize
  split <;> omega

theorem config_cmd (k : Kernel) (q : Nat) (c : UInt8) (hc : c ≠ 1 ∧ c ≠ 2) : config k ⟨2, q, [(1, [c, 0] ++ be16 2)]⟩ = k := by
  funext r
  have e : (([(1, [c, 0] ++ be16 2)] : List (Nat × List UInt8)).lookup 1) = some (c :: ([0] ++ be16 2)) := rfl
  simp only [config, ne_eq, not_true_eq_false, if_false, e, hc.1, hc.2]
  split
  · cases k r <;> rfl
  · rfl

theorem config_bind (k : Kernel) (q : Nat) (hq : k q = none) : config k ⟨2, q, [(1, [1, 0] ++ be16 2)]⟩ = fun r => if r = q then some fresh else k r := by
  funext r
  have e : (([(1, [1, 0] ++ be16 2)] : List (Nat × List UInt8)).lookup 1) = some (1 :: ([0] ++ be16 2)) := rfl
  simp only [config, ne_eq, not_true_eq_false, if_false, e, if_true]
  by_cases h : r = q
  · subst h
    rw [if_pos rfl, if_pos ⟨rfl, hq⟩, if_pos rfl]
    rfl
  · rw [if_neg h, if_neg (fun x => h x.1), if_neg h]

theorem setFlags_gso (x : Queue) (p : List UInt8) : setFlags x [(2, p), (5, be32 4), (4, be32 4)] = { x with flags := (x.flags &&& 4294967291) ||| 4 } := by
  have e5 : (([(2, p), (5, be32 4), (4, be32 4)] : List (Nat × List UInt8)).lookup 5) = some (be32 4) := rfl
  have e4 : (([(2, p), (5, be32 4), (4, be32 4)] : List (Nat × List UInt8)).lookup 4) = some (be32 4) := rfl
  unfold setFlags
  rw [e5, e4]
  dsimp only
  rw [big_be32]
  simp

theorem config_params (k : Kernel) (q mtu : Nat) (x : Queue) (hk : k q = some x) (h : mtu < 4294967296) :
    config k ⟨2, q, [(2, be32 mtu ++ [2]), (5, be32 4), (4, be32 4)]⟩ = fun r => if r = q then some ⟨2, Nfq.copyRange mtu, x.maxlen, (x.flags &&& 4294967291) ||| 4⟩ else k r := by
  funext r
  have e : (([(2, be32 mtu ++ [2]), (5, be32 4), (4, be32 4)] : List (Nat × List UInt8)).lookup 1) = none := rfl
  simp only [config, ne_eq, not_true_eq_false, if_false, e]
  by_cases hr : r = q
  · subst hr
    rw [if_pos rfl, if_pos rfl, hk]
    simp only [Option.map_some, List.foldl_cons, List.foldl_nil]
    have a1 : setAttr x (2, be32 mtu ++ [2]) = { x with mode := 2, range := Nfq.copyRange mtu } := by
      have t : (be32 mtu ++ [2]).take 4 = be32 mtu := rfl
      have d : (be32 mtu ++ [2]).drop 4 = [2] := rfl
      simp only [setAttr, if_true, t, d, big_be32, Nat.mod_eq_of_lt h]
      rfl
    have a2 : ∀ y : Queue, setAttr y (5, be32 4) = y := fun _ => rfl
    have a3 : ∀ y : Queue, setAttr y (4, be32 4) = y := fun _ => rfl
    rw [a1, a2, a3, setFlags_gso]
  · rw [if_neg hr, if_neg hr]

theorem config_maxlen (k : Kernel) (q n : Nat) (x : Queue) (hk : k q = some x) (h : n < 4294967296) : config k ⟨2, q, [(3, be32 n)]⟩ = fun r => if r = q then some { x with maxlen := n } else k r := by
  funext r
  have e : (([(3, be32 n)] : List (Nat × List UInt8)).lookup 1) = none := rfl
  simp only [config, ne_eq, not_true_eq_false, if_false, e]
  by_cases hr : r = q
  · subst hr
    rw [if_pos rfl, if_pos rfl, hk]
    simp only [Option.map_some, List.foldl_cons, List.foldl_nil]
    have a1 : setAttr x (3, be32 n) = { x with maxlen := n } := by
      have : (3 : Nat) ≠ 2 := by omega
      simp only [setAttr, this, if_false, if_true, big_be32, Nat.mod_eq_of_lt h]
    rw [a1]
    rfl
  · rw [if_neg hr, if_neg hr]

/-- The messages of the set-up: they fit, and how they are read. -/
theorem setup_msgs (room q n mtu : Nat) (h : 2048 ≤ room) : ∃ b0 b1 b2 b3 b4, setupMsgs room q n mtu = [.ok b0, .ok b1, .ok b2, .ok b3, .ok b4] ∧
    read b0 = some ⟨2, 0, [(1, [4, 0] ++ be16 2)]⟩ ∧ read b1 = some ⟨2, 0, [(1, [3, 0] ++ be16 2)]⟩ ∧ read b2 = some ⟨2, q % 65536, [(1, [1, 0] ++ be16 2)]⟩ ∧
    read b3 = some ⟨2, q % 65536, [(2, be32 mtu ++ [2]), (5, be32 4), (4, be32 4)]⟩ ∧ read b4 = some ⟨2, q % 65536, [(3, be32 n)]⟩ := by
  obtain ⟨b0, e0, _, r0⟩ := cmd_ok (room := room) (by omega) 0 4
  obtain ⟨b1, e1, _, r1⟩ := cmd_ok (room := room) (by omega) 0 3
  obtain ⟨b2, e2, _, r2⟩ := cmd_ok (room := room) (by omega) q 1
  obtain ⟨b3, e3, _, r3⟩ := params_ok (room := room) (by omega) q mtu
  obtain ⟨b4, e4, _, r4⟩ := maxlen_ok (room := room) (by omega) q n
  exact ⟨b0, b1, b2, b3, b4, by unfold setupMsgs; rw [e0, e1, e2, e3, e4], r0, r1, r2, r3, r4⟩

/-- **C87**, the set-up (partial: numbers of queues below 65536). If all calls succeed, the kernel then has the queue, which was free before, with packets copied up to the mtu, with the length that was asked for, and with GSO; and
nothing else has changed. The buffer for messages has room for a packet of the size of the mtu and 2048 bytes more. -/
theorem C87_setup_partial (env : Env) (hp : 4096 ≤ env.page) (he : AllOk env) (q n mtu : Nat) (hq : q < 65536) (hn : n < 4294967296) (hm : mtu < 4294967296) (k : Kernel) (hk : k q = none) :
    configAll k (setup env true q n mtu).1 = some (fun r => if r = q then some ⟨2, Nfq.copyRange mtu, n, 4⟩ else k r) ∧
    ∃ buf s, (setup env true q n mtu).2 = .ok (buf, s) ∧ mtu + 2048 ≤ buf := by
  obtain ⟨h1, h2, h3, h4⟩ := he
  obtain ⟨b0, b1, b2, b3, b4, e, r0, r1, r2, r3, r4⟩ := setup_msgs (sizeofBuf env.page mtu) q n mtu (bufSize_half hp mtu)
  have hs : setup env true q n mtu = ([b0, b1, b2, b3, b4], match env.rcvbuf with
      | some r => .ok (sizeofBuf env.page mtu, if newsize n mtu > r then some (newsize n mtu) else none)
      | none => .ok (sizeofBuf env.page mtu, none)) := by
    unfold setup
    rw [if_neg (by simp [h1, h2, h3]), e]
    simp only [sendAll, h4 0 (by omega), h4 1 (by omega), h4 2 (by omega), h4 3 (by omega), h4 4 (by omega), Bool.true_eq_false, if_false, Nat.reduceAdd]
    cases env.rcvbuf <;> rfl
  rw [hs]
  constructor
  · simp only [configAll, r0, r1, r2, r3, r4, Option.bind_some]
    rw [Nat.mod_eq_of_lt hq, config_cmd k 0 4 (by decide), config_cmd k 0 3 (by decide), config_bind k q hk]
    rw [config_params _ q mtu fresh (by rw [if_pos rfl]) hm, config_maxlen _ q n _ (by rw [if_pos rfl]) hn]
    congr 1
    funext r
    by_cases hr : r = q
    · rw [if_pos hr, if_pos hr]; rfl
    · rw [if_neg hr, if_neg hr, if_neg hr, if_neg hr]
  · have hb : mtu + 2048 ≤ sizeofBuf env.page mtu := by
      unfold sizeofBuf bufSize
      split <;> omega
    cases env.rcvbuf with
    | none => exact ⟨_, _, rfl, hb⟩
    | some r => exact ⟨_, _, rfl, hb⟩

theorem sendAll_exit (env : Env) : ∀ (ms : List (List UInt8)) (i j : Nat), i ≤ j → j < i + ms.length → env.sendOk j = false → (∀ x, i ≤ x → x < j → env.sendOk x = true) →
    sendAll env i (ms.map .ok) = (ms.take (j - i), .die)
  | [], i, j, h1, h2, _, _ => by simp at h2; omega
  | b :: ms, i, j, h1, h2, h3, h4 => by
    simp only [List.map_cons, sendAll]
    by_cases hij : i = j
    · subst hij
      rw [if_pos h3]
      simp
    · rw [if_neg (by rw [h4 i (by omega) (by omega)]; simp)]
      rw [sendAll_exit env ms (i + 1) j (by omega) (by simp at h2; omega) h3 (fun x a b => h4 x (by omega) b)]
      rw [show j - i = (j - (i + 1)) + 1 by omega]
      rfl

/-- **C87**, errors: if the program has no handler, or a call fails, it exits; if the j-th message cannot be sent, exactly the messages before it have been sent. -/
theorem C87_exit (env : Env) (hp : 4096 ≤ env.page) (q n mtu : Nat) :
    (∀ handler, handler = false ∨ env.openOk = false ∨ env.bindOk = false ∨ env.mallocOk = false → setup env handler q n mtu = ([], .die)) ∧
    (env.openOk = true → env.bindOk = true → env.mallocOk = true → ∀ j < 5, env.sendOk j = false → (∀ i < j, env.sendOk i = true) →
      (setup env true q n mtu).2 = .die ∧ (setup env true q n mtu).1.length = j) := by
  constructor
  · intro handler h
    unfold setup
    rw [if_pos h]
  · intro h1 h2 h3 j hj hf hs
    obtain ⟨b0, b1, b2, b3, b4, e, _⟩ := setup_msgs (sizeofBuf env.page mtu) q n mtu (bufSize_half hp mtu)
    unfold setup
    rw [if_neg (by simp [h1, h2, h3]), e]
    have := sendAll_exit env [b0, b1, b2, b3, b4] 0 j (by omega) (by simp; omega) hf (fun x _ hx => hs x hx)
    simp only [List.map_cons, List.map_nil] at this
    rw [this]
    refine ⟨rfl, ?_⟩
    simp only [List.length_take, List.length_cons, List.length_nil]
    omega

/-- **C87**: the buffers are always large enough, whatever the numbers are: the set-up ends, or the program exits. -/
theorem C87_defined (env : Env) (hp : 4096 ≤ env.page) (handler : Bool) (q n mtu : Nat) : (setup env handler q n mtu).2 = .die ∨ ∃ r, (setup env handler q n mtu).2 = .ok r := by
  by_cases hc : handler = false ∨ env.openOk = false ∨ env.bindOk = false ∨ env.mallocOk = false
  · left; rw [(C87_exit env hp q n mtu).1 handler hc]
  · obtain ⟨b0, b1, b2, b3, b4, e, _⟩ := setup_msgs (sizeofBuf env.page mtu) q n mtu (bufSize_half hp mtu)
    unfold setup
    rw [if_neg hc, e]
    simp only [sendAll]
    cases env.sendOk 0 <;> cases env.sendOk (0 + 1) <;> cases env.sendOk (0 + 1 + 1) <;> cases env.sendOk (0 + 1 + 1 + 1) <;> cases env.sendOk (0 + 1 + 1 + 1 + 1) <;>
      first
      | exact .inl rfl
      | (right; cases env.rcvbuf <;> exact ⟨_, rfl⟩)

/-- What the callback sends has numbers that fit. -/
theorem queueCb_fits {σ : Type} (handle : Nfq.Handler σ) (st : σ) (m : Nfq.Msg) {rc : Int} {st' : σ} {vs : List Nfq.Verdict} (h : Nfq.queueCb handle st m = .ok (rc, st', vs)) :
    ∀ v ∈ vs, v.queue < 65536 ∧ v.id < 4294967296 ∧ v.mark < 4294967296 ∧ v.verdict < 2 := by
  unfold Nfq.queueCb at h
  split at h
  · cases h; simp
  split at h
  · cases h; simp
  rename_i ph _
  split at h
  · cases h
  obtain ⟨x, _, h⟩ := Server.bind_ok h
  have q1 := m.resId.1.toNat_lt
  have q2 := m.resId.2.toNat_lt
  have p1 := ph.packetId.1.toNat_lt
  have p2 := ph.packetId.2.1.toNat_lt
  have p3 := ph.packetId.2.2.1.toNat_lt
  have p4 := ph.packetId.2.2.2.toNat_lt
  dsimp only at h
  split at h
  · cases h
    intro v hv
    simp only [List.mem_cons, List.not_mem_nil, or_false] at hv
    subst hv
    dsimp only [Nfq.ntohl]
    omega
  · cases h
    intro v hv
    simp only [List.mem_cons, List.not_mem_nil, or_false] at hv
    subst hv
    dsimp only [Nfq.ntohl]
    omega

/-- **C87**, verdicts: each verdict that the program sends (C54), whatever the messages from the kernel are, fits in its buffer, and the message is read by the kernel as this verdict: for this queue and this packet, with this mark. -/
theorem C87_verdicts {σ : Type} (handle : Nfq.Handler σ) (page : Nat) (hp : 4096 ≤ page) : ∀ (ms : List Nfq.Msg) (st : σ), ∀ v ∈ (Nfq.run handle st ms).1,
    ∃ bs, verdictMsg page v = .ok bs ∧ verdict bs = some (v.queue, v.id, v.mark, v.verdict)
  | [], st, v, hv => by simp [Nfq.run] at hv
  | m :: ms, st, v, hv => by
    have fits : v.queue < 65536 ∧ v.id < 4294967296 ∧ v.mark < 4294967296 ∧ v.verdict < 2 → ∃ bs, verdictMsg page v = .ok bs ∧ verdict bs = some (v.queue, v.id, v.mark, v.verdict) := by
      rintro ⟨a, b, c, d⟩
      obtain ⟨bs, e1, _, e2⟩ := verdict_ok (page := page) (by omega) v
      rw [Nat.mod_eq_of_lt a, Nat.mod_eq_of_lt b, Nat.mod_eq_of_lt c, Nat.mod_eq_of_lt (by omega)] at e2
      exact ⟨bs, e1, e2⟩
    simp only [Nfq.run] at hv
    cases hc : Nfq.queueCb handle st m with
    | ok x =>
      obtain ⟨rc, st', vs⟩ := x
      rw [hc] at hv
      dsimp only at hv
      split at hv
      · exact fits (queueCb_fits handle st m hc v hv)
      · rcases List.mem_append.1 hv with hv | hv
        · exact fits (queueCb_fits handle st m hc v hv)
        · exact C87_verdicts handle page hp ms st' v hv
    | die => rw [hc] at hv; simp at hv
    | ub => rw [hc] at hv; simp at hv
    | hang => rw [hc] at hv; simp at hv

/-- **C87**, the receive buffer of the socket (partial): it is never made smaller; and if queue length times mtu is below 2^32, it is afterwards, if it can be read and set, not more than a page (of 4096 bytes) smaller than half of that. -/
theorem C87_rcvbuf_partial (env : Env) (q n mtu : Nat) (buf : Nat) (s : Option Nat) (h : (setup env true q n mtu).2 = .ok (buf, s)) :
    (∀ x, s = some x → ∃ r, env.rcvbuf = some r ∧ r < x) ∧
    (n * mtu < 4294967296 → ∀ r, env.rcvbuf = some r → n * mtu / 2 < (match s with | some x => x | none => r) + 4096) := by
  unfold setup at h
  split at h
  · cases h
  dsimp only at h
  generalize (sendAll env 0 (setupMsgs (sizeofBuf env.page mtu) q n mtu)).2 = y at h
  cases y with
  | ok u =>
    simp only [Res.ok_bind] at h
    cases hr : env.rcvbuf with
    | none =>
      rw [hr] at h
      cases h
      exact ⟨fun x hx => (by cases hx), fun _ r hr => by cases hr⟩
    | some r =>
      rw [hr] at h
      simp only [Res.pure_eq, Res.ok.injEq, Prod.mk.injEq] at h
      obtain ⟨_, hs⟩ := h
      by_cases hg : newsize n mtu > r
      · rw [if_pos hg] at hs
        subst hs
        refine ⟨fun x hx => ⟨r, rfl, by cases hx; exact hg⟩, fun hl r' _ => ?_⟩
        dsimp only
        unfold newsize u32
        rw [Nat.mod_eq_of_lt hl]
        omega
      · rw [if_neg hg] at hs
        subst hs
        refine ⟨fun x hx => (by cases hx), fun hl r' hr' => ?_⟩
        cases hr'
        dsimp only
        unfold newsize u32 at hg
        rw [Nat.mod_eq_of_lt hl] at hg
        omega
  | die => simp at h
  | ub => simp at h
  | hang => simp at h

/-! ### Cases -/

/-- A system on which everything succeeds. -/
def okEnv : Env := ⟨4096, true, true, true, fun _ => true, some 212992⟩

example : AllOk okEnv ∧ 4096 ≤ okEnv.page := ⟨⟨rfl, rfl, rfl, fun _ _ => rfl⟩, by decide⟩

/-- `lb --queue=2 --qlength=2048`. -/
example : (setup okEnv true 2 2048 1500).2 = .ok (3548, some 1536000) := by decide +kernel

example : (setup okEnv true 2 2048 1500).1[3]? = some [48, 0, 0, 0, 2, 3, 1, 0, 0, 0, 0, 0, 0, 0, 0, 0, 0, 0, 0, 2, 9, 0, 2, 0, 0, 0, 5, 220, 2, 0, 0, 0, 8, 0, 5, 0, 0, 0, 0, 4, 8, 0, 4, 0, 0, 0, 0, 4] := by
  decide +kernel

/-- The third message cannot be sent. -/
example : (setup { okEnv with sendOk := fun i => decide (i ≠ 2) } true 2 2048 1500).2 = .die ∧ (setup { okEnv with sendOk := fun i => decide (i ≠ 2) } true 2 2048 1500).1.length = 2 := by
  decide +kernel

example : verdictMsg 4096 ⟨2, 258, 5, 1⟩ = .ok [40, 0, 0, 0, 1, 3, 1, 0, 0, 0, 0, 0, 0, 0, 0, 0, 0, 0, 0, 2, 12, 0, 2, 0, 0, 0, 0, 1, 0, 0, 1, 2, 8, 0, 3, 0, 0, 0, 0, 5] := by decide +kernel

/-- **C87 as stated is false.**
* `--queue=65538` sets up queue 2: the number is cut to 16 bits.
* With `--qlength=2863312` and the mtu 1500 the size for the receive buffer is computed as 0 (the product wraps at 32 bits), so the buffer stays as it is, though half of the queue has 2147484000 bytes. -/
theorem C87_violated :
    (∀ env n mtu k, 4096 ≤ env.page → AllOk env → n < 4294967296 → mtu < 4294967296 → k 2 = none → ∃ k', configAll k (setup env true 65538 n mtu).1 = some k' ∧ k' 65538 = k 65538 ∧ k' 2 ≠ none) ∧
    (newsize 2863312 1500 = 0 ∧ 2863312 * 1500 / 2 = 2147484000 ∧ (setup okEnv true 2 2863312 1500).2 = .ok (3548, none)) := by
  refine ⟨?_, by decide +kernel⟩
  intro env n mtu k hp he hn hm hk
  have e : setup env true 65538 n mtu = setup env true 2 n mtu := by
    unfold setup setupMsgs cmdMsg paramsMsg maxlenMsg hdrPut
    have : be16 65538 = be16 2 := by decide
    rw [this]
  rw [e, (C87_setup_partial env hp he 2 n mtu (by omega) hn hm k hk).1]
  exact ⟨_, rfl, by simp, by simp⟩

end Nfqlb.Props
