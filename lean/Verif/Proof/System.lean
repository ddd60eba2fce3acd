import Verif.Spec.System
import Verif.Proof.Session
import Verif.Proof.EndToEnd
import Verif.Proof.PktTotal
import Verif.Proof.NlMsg
import Verif.Proof.Nfqueue
import Verif.Proof.Start
import Verif.Props.Packet
import Verif.Props.Start

set_option autoImplicit false

namespace Nfqlb.Sys

open Nfqlb Nfqlb.Maglev Nfqlb.Cmd Nfqlb.Session Nfqlb.Spec Nfqlb.Spec.Session Nfqlb.Spec.Sys Nfqlb.Spec.Nfq Nfqlb.Spec.Pkt Nfqlb.E2E
open Nfqlb.Spec.Cmd

/-! ### Marks are small -/

/-- All marks are of type `int`. -/
def Small (S : Lbs) : Prop := ∀ n lb, S n = some lb → ∀ r ∈ lb.targets, 0 ≤ r ∧ r < 2147483648

theorem small_activate (N : Nat) : ∀ (ms : List Nat) (T : Finset Int), (∀ m ∈ ms, m ≤ 2147483647) → (∀ r ∈ T, 0 ≤ r ∧ r < 2147483648) →
    ∀ r ∈ (ms.map (fun (m : Nat) => (m : Int))).foldl (setActivate N) T, 0 ≤ r ∧ r < 2147483648
  | [], T, _, h => h
  | m :: ms, T, hm, h => by
    rw [List.map_cons, List.foldl_cons]
    refine small_activate N ms _ (fun x hx => hm x (by simp [hx])) ?_
    intro r hr
    unfold setActivate at hr
    split at hr
    · rcases Finset.mem_insert.1 hr with rfl | hr
      · have := hm m (by simp); omega
      · exact h r hr
    · exact h r hr

theorem small_deactivate : ∀ (ms : List Nat) (T : Finset Int), (∀ r ∈ T, 0 ≤ r ∧ r < 2147483648) →
    ∀ r ∈ (ms.map (fun (m : Nat) => (m : Int))).foldl setDeactivate T, 0 ≤ r ∧ r < 2147483648
  | [], T, h => h
  | m :: ms, T, h => by
    rw [List.map_cons, List.foldl_cons]
    refine small_deactivate ms _ ?_
    intro r hr
    exact h r (Finset.mem_of_mem_erase hr)

theorem small_set {S : Lbs} (h : Small S) (n : List Char) (x : Option Spec.Session.Lb) (hx : ∀ lb, x = some lb → ∀ r ∈ lb.targets, 0 ≤ r ∧ r < 2147483648) : Small (set S n x) := by
  intro m lb hm
  unfold Spec.Session.set at hm
  split at hm
  · exact hx lb hm
  · exact h m lb hm

theorem small_apply {S : Lbs} (h : Small S) (l : Line) (hl : l.InRange) : Small (l.apply S) := by
  cases l with
  | init shm own M N =>
    unfold Line.apply
    dsimp only
    split
    · refine small_set h _ _ ?_
      intro lb e
      cases e
      simp
    · exact h
  | delete shm => exact small_set h _ _ (fun lb e => by cases e)
  | activate shm marks =>
    simp only [Line.apply]
    cases e : S shm with
    | none => exact h
    | some lb =>
      refine small_set h _ _ ?_
      intro lb' e'
      cases e'
      exact small_activate _ marks _ hl (h _ _ e)
  | deactivate shm marks =>
    simp only [Line.apply]
    cases e : S shm with
    | none => exact h
    | some lb =>
      refine small_set h _ _ ?_
      intro lb' e'
      cases e'
      exact small_deactivate marks _ (h _ _ e)

theorem small_after : ∀ (ls : List Line) {S : Lbs}, Small S → (∀ l ∈ ls, l.InRange) → Small (ls.foldl Line.apply S)
  | [], _, h, _ => h
  | l :: ls, S, h, hl => by
    rw [List.foldl_cons]
    exact small_after ls (small_apply h l (hl l (by simp))) (fun x hx => hl x (by simp [hx]))

/-! ### Lines -/

theorem init_opts : ∀ c ∈ commands, c.name = "init".toList → c.opts = initOpts := by decide +kernel

theorem delete_opts : ∀ c ∈ commands, c.name = "delete".toList → c.opts = [helpOpt, row "shm" none true] := by decide +kernel

/-- The lines that a good event has do not touch what is mapped. -/
theorem not_touched {nm : Str → Option Str} {rnd : Nat → Nat} {w w' : Store} {t : List Char} (p : Proc) (l : Line) (hn : nm l.shm = some l.shm)
    {c : Cfg} (hc1 : c.tshm = p.tshm) (hc2 : c.lbshm = p.lbshm) (hg : Apart c l)
    (h : Session.line nm rnd w l.argv = .ok (w', t)) : touched l.argv w w' p = false := by
  have key : ∀ n, (∀ j, j ≠ n → w' j = w j) → n ≠ p.tshm → p.lbshm ≠ some n → touched l.argv w w' p = false := by
    intro n hf h1 h2
    unfold touched
    rw [hf p.tshm (fun e => h1 e.symm)]
    cases e : p.lbshm with
    | none => simp
    | some j =>
      have : j ≠ n := fun x => h2 (by rw [e, x])
      dsimp only
      rw [hf j this]
      simp
  cases l with
  | init n own M N =>
    have hg' : n ≠ c.tshm ∧ c.lbshm ≠ some n := hg
    rw [hc1, hc2] at hg'
    refine key n ?_ hg'.1 hg'.2
    rcases line_frame h with ⟨e, _⟩ | ⟨c', hc, hh, vars, m, shm, k, e1, e2, e3, e4⟩
    · intro j _; rw [e]
    · have hname : c'.name = "init".toList := by
        have : (Line.init n own M N).argv.head? = some "init".toList := rfl
        rw [this] at hh
        exact (Option.some.inj hh).symm
      rw [init_opts c' hc hname] at e1
      obtain ⟨vars', m', f1, f2, -⟩ := parse_init "init".toList n (Spec.Session.dec own) (Spec.Session.dec M) (Spec.Session.dec N)
      have f1' : parseOrDie initOpts (Line.init n own M N).argv = .ok (vars', m') := f1
      rw [f1'] at e1
      cases e1
      rw [f2] at e2
      cases e2
      have hn' : nm n = some n := hn
      rw [hn'] at e3
      cases e3
      exact e4
  | delete n =>
    have hg' : n ≠ c.tshm ∧ c.lbshm ≠ some n := hg
    rw [hc1, hc2] at hg'
    refine key n ?_ hg'.1 hg'.2
    rcases line_frame h with ⟨e, _⟩ | ⟨c', hc, hh, vars, m, shm, k, e1, e2, e3, e4⟩
    · intro j _; rw [e]
    · have hname : c'.name = "delete".toList := by
        have : (Line.delete n).argv.head? = some "delete".toList := rfl
        rw [this] at hh
        exact (Option.some.inj hh).symm
      rw [delete_opts c' hc hname] at e1
      obtain ⟨vars', m', f1, f2⟩ := parse_delete "delete".toList n
      have f1' : parseOrDie [helpOpt, row "shm" none true] (Line.delete n).argv = .ok (vars', m') := f1
      rw [f1'] at e1
      cases e1
      rw [f2] at e2
      cases e2
      have hn' : nm n = some n := hn
      rw [hn'] at e3
      cases e3
      exact e4
  | activate n ms =>
    unfold touched
    have : (Line.activate n ms).argv.head? = some "activate".toList := rfl
    rw [this, decide_eq_false (by decide), decide_eq_false (by decide)]
    rfl
  | deactivate n ms =>
    unfold touched
    have : (Line.deactivate n ms).argv.head? = some "deactivate".toList := rfl
    rw [this, decide_eq_false (by decide), decide_eq_false (by decide)]
    rfl

/-! ### The decision -/

theorem redirect_cases {tier : Option (Maglev.Mag × Int)} (ht : ∀ d own, tier = some (d, own) → MagInv d) (key : Key) :
    ∃ o, tierRedirect tier key = .ok o ∧ ∀ fw, o = some fw → ∃ d own, tier = some (d, own) ∧ fw ∈ activeMarks d.active ∧ fw ≠ own := by
  cases tier with
  | none => exact ⟨none, rfl, fun _ h => by cases h⟩
  | some x =>
    obtain ⟨d, own⟩ := x
    obtain ⟨fw, e, h⟩ := target_cases (ht d own rfl) (hashKeyAddresses key)
    unfold tierRedirect
    dsimp only
    rw [e, Res.ok_bind]
    refine ⟨_, rfl, ?_⟩
    intro fw' h'
    split at h'
    · rename_i hc
      cases h'
      rcases h with ⟨_, h, _⟩ | ⟨_, h⟩
      · exact ⟨d, own, rfl, h, hc.2⟩
      · omega
    · cases h'

/-! ### Which datagram a fragment is of -/

/-- The key is one for the datagram of the packet. -/
def KeyOf (q : Queued) (k : Key) : Prop := (k.src, k.dst) = ends q ∧ ∀ a, ident q = some a → a = [k.ud.1, k.ud.2, k.proto.1, k.proto.2]

theorem same_of_key {q q' : Queued} {k : Key} (h : KeyOf q k) (h' : KeyOf q' k) : SameDatagram q q' :=
  ⟨h.1.symm.trans h'.1, fun a b ha hb => by rw [h.2 a ha, h'.2 b hb]⟩

/-- What is known about the fragments. -/
def FragOf (q : Queued) (p : Parsed) : Prop :=
  p.rc % 4 ≠ 0 → Fragment q ∧ (p.rc % 2 = 0 → KeyOf q p.key) ∧ (p.rc % 2 = 1 → ∀ k, withFragid p = .ok k → KeyOf q k)

theorem rd16_bytes {d : Packet} {i : Nat} {r : Raw16} (h : rd16 d i = .ok r) : bytesAt d i 2 = [r.1, r.2] := by
  unfold rd16 at h
  obtain ⟨a, ha, h⟩ := Server.bind_ok h
  obtain ⟨b, hb, h⟩ := Server.bind_ok h
  cases h
  have h1 := rd_some ha
  have h2 := rd_some hb
  obtain ⟨l1, e1⟩ := List.getElem?_eq_some_iff.1 h1
  obtain ⟨l2, e2⟩ := List.getElem?_eq_some_iff.1 h2
  unfold bytesAt
  rw [List.drop_eq_getElem_cons l1, List.drop_eq_getElem_cons l2, e1, e2]
  rfl

theorem rdN_bytes {d : Packet} {i n : Nat} {r : List UInt8} (h : rdN d i n = .ok r) : bytesAt d i n = r := by
  unfold rdN at h
  split at h
  · cases h; rfl
  · cases h

theorem inner4_rc {ue : Nat} {d : Packet} {ih : Nat} {p : Parsed} (h : getInnerHashKeyIpv4 ue d ih = .ok p) : p.rc < 0 ∨ p.rc % 4 = 0 := by
  unfold getInnerHashKeyIpv4 at h
  dsimp only at h
  split at h
  · cases h; exact .inl (by decide)
  obtain ⟨b0, _, h⟩ := Server.bind_ok h
  split at h
  · cases h; exact .inl (by decide)
  obtain ⟨_, _, h⟩ := Server.bind_ok h
  obtain ⟨_, _, h⟩ := Server.bind_ok h
  obtain ⟨_, _, h⟩ := Server.bind_ok h
  split at h
  · cases h; exact .inr rfl
  · rcases portsPart_rc h with rfl | ⟨_, _, _, h | h⟩
    · exact .inl (by decide)
    · rw [h]; exact .inr rfl
    · rw [h]; exact .inr rfl

theorem inner6_rc {ue : Nat} {d : Packet} {ih : Nat} {p : Parsed} (h : getInnerHashKeyIpv6 ue d ih = .ok p) : p.rc < 0 ∨ p.rc % 4 = 0 := by
  unfold getInnerHashKeyIpv6 at h
  dsimp only at h
  split at h
  · cases h; exact .inl (by decide)
  obtain ⟨_, _, h⟩ := Server.bind_ok h
  obtain ⟨r, _, h⟩ := Server.bind_ok h
  cases r with
  | none => cases h; exact .inl (by decide)
  | some r =>
    obtain ⟨htype, hdr⟩ := r
    dsimp only at h
    obtain ⟨_, _, h⟩ := Server.bind_ok h
    obtain ⟨_, _, h⟩ := Server.bind_ok h
    split at h
    · cases h; exact .inr rfl
    · rcases portsPart_rc h with rfl | ⟨_, _, _, h | h⟩
      · exact .inl (by decide)
      · rw [h]; exact .inr rfl
      · rw [h]; exact .inr rfl

/-- A first fragment, with what is read from it. -/
theorem fragOf_first {q : Queued} {p : Parsed} (hf : Fragment q) (h1 : p.rc % 2 = 1) {a b : Raw16} (hid : p.fragid = some (a, b)) (he : (p.key.src, p.key.dst) = ends q)
    (hi : ∀ x, ident q = some x → x = [a.1, a.2, b.1, b.2]) : FragOf q p := by
  intro _
  refine ⟨hf, fun h => by omega, fun _ k hk => ?_⟩
  unfold withFragid at hk
  rw [hid] at hk
  cases hk
  exact ⟨he, hi⟩

theorem fragOf_zero {q : Queued} {p : Parsed} (h : p.rc % 4 = 0) : FragOf q p := fun h' => absurd h h'

theorem v4_of {ue : Nat} {q : Queued} (hq : q.proto = 0x0800) {p : Parsed} (h : getHashKeyIpv4 ue q.data = .ok p) : p.rc < 0 ∨ FragOf q p := by
  unfold getHashKeyIpv4 at h
  dsimp only at h
  split at h
  · cases h; exact .inl (by decide)
  obtain ⟨b0, _, h⟩ := Server.bind_ok h
  split at h
  · cases h; exact .inl (by decide)
  obtain ⟨fo, hfo, h⟩ := Server.bind_ok h
  obtain ⟨idn, hidn, h⟩ := Server.bind_ok h
  obtain ⟨sa, hsa, h⟩ := Server.bind_ok h
  obtain ⟨da, hda, h⟩ := Server.bind_ok h
  obtain ⟨proto, _, h⟩ := Server.bind_ok h
  have hends : ends q = (mapped4 sa, mapped4 da) := by
    unfold ends
    rw [if_pos hq, rdN_bytes hsa, rdN_bytes hda]
    rfl
  have hid : ∀ x, ident q = some x → x = [idn.1, idn.2, 0, 0] := by
    intro x hx
    unfold ident at hx
    rw [if_pos hq, rd16_bytes hidn] at hx
    cases hx
    rfl
  have hfrag : decide (ntohs fo % 16384 ≠ 0) = true → Fragment q := by
    intro hd
    have hd := of_decide_eq_true hd
    refine .inl ⟨hq, ?_⟩
    rw [rd16_bytes hfo]
    have : value [fo.1, fo.2] = ntohs fo := by simp [value, ntohs]
    rw [this]
    exact hd
  generalize decide (ntohs fo % 16384 ≠ 0) = frag at h hfrag
  split at h
  · rename_i hc
    cases h
    refine .inr fun _ => ⟨hfrag ?_, fun _ => ⟨hends.symm, hid⟩, fun h => absurd h (by show ¬ (2 : Int) % 2 = 1; decide)⟩
    cases frag
    · simp at hc
    · rfl
  have base : ∀ p : Parsed, p.rc % 4 = (if frag then 1 else 0) → p.fragid = (if frag then some (idn, ((0, 0) : Raw16)) else none) → p.key.src = mapped4 sa → p.key.dst = mapped4 da → FragOf q p := by
    intro p h1 h2 h3 h4
    cases frag with
    | false => exact fragOf_zero h1
    | true =>
      have h1' : p.rc % 4 = 1 := h1
      refine fragOf_first (hfrag rfl) (by omega) h2 ?_ hid
      rw [h3, h4, hends]
  split at h
  · obtain ⟨t, _, h⟩ := Server.bind_ok h
    split at h
    · split at h
      · cases h; exact .inl (by decide)
      · rcases inner4_rc h with h | h
        · exact .inl h
        · exact .inr (fragOf_zero h)
    split at h
    · obtain ⟨id, _, h⟩ := Server.bind_ok h
      cases h
      exact .inr (base _ (by cases frag <;> rfl) rfl rfl rfl)
    · cases h
      exact .inr (base _ (by cases frag <;> rfl) rfl rfl rfl)
  split at h
  · cases h
    exact .inr (base _ (by cases frag <;> rfl) rfl rfl rfl)
  · rcases portsPart_rc h with rfl | ⟨h1, h2, h3, h4 | h4⟩
    · exact .inl (by decide)
    · exact .inr (base _ (by rw [h4]; cases frag <;> rfl) h1 h2 h3)
    · exact .inr (base _ (by rw [h4]; cases frag <;> rfl) h1 h2 h3)

theorem upper6_of {ue : Nat} {q : Queued} {d : Packet} {sa da : List UInt8} {frag : Bool} {f : Option (Raw16 × Raw16)} {t : UInt8} {hdr : Nat} {p : Parsed}
    (h : ipv6Upper ue d sa da frag f t hdr = .ok p)
    (base : ∀ p : Parsed, p.rc % 4 = (if frag then 1 else 0) → p.fragid = f → p.key.src = sa → p.key.dst = da → FragOf q p) : p.rc < 0 ∨ FragOf q p := by
  unfold ipv6Upper at h
  dsimp only at h
  split at h
  · obtain ⟨t, _, h⟩ := Server.bind_ok h
    split at h
    · split at h
      · cases h; exact .inl (by decide)
      · rcases inner6_rc h with h | h
        · exact .inl h
        · exact .inr (fragOf_zero h)
    split at h
    · obtain ⟨id, _, h⟩ := Server.bind_ok h
      cases h
      exact .inr (base _ (by cases frag <;> rfl) rfl rfl rfl)
    · cases h
      exact .inr (base _ (by cases frag <;> rfl) rfl rfl rfl)
  split at h
  · cases h
    exact .inr (base _ (by cases frag <;> rfl) rfl rfl rfl)
  · rcases portsPart_rc h with rfl | ⟨h1, h2, h3, h4 | h4⟩
    · exact .inl (by decide)
    · exact .inr (base _ (by rw [h4]; cases frag <;> rfl) h1 h2 h3)
    · exact .inr (base _ (by rw [h4]; cases frag <;> rfl) h1 h2 h3)

theorem v6_of {ue : Nat} {q : Queued} (hq : q.proto = 0x86dd) {p : Parsed} (h : getHashKeyIpv6 ue q.data = .ok p) : p.rc < 0 ∨ FragOf q p := by
  unfold getHashKeyIpv6 at h
  dsimp only at h
  split at h
  · cases h; exact .inl (by decide)
  obtain ⟨nxt, hnxt, h⟩ := Server.bind_ok h
  obtain ⟨sa, hsa, h⟩ := Server.bind_ok h
  obtain ⟨da, hda, h⟩ := Server.bind_ok h
  obtain ⟨r, hr, h⟩ := Server.bind_ok h
  have hne : q.proto ≠ 0x0800 := by rw [hq]; decide
  have hends : ends q = (sa, da) := by
    unfold ends
    rw [if_neg hne, rdN_bytes hsa, rdN_bytes hda]
  cases r with
  | none => cases h; exact .inl (by decide)
  | some r =>
    obtain ⟨htype, hdr⟩ := r
    dsimp only at h
    split at h
    · rename_i h44
      subst h44
      obtain ⟨ol, _, h⟩ := Server.bind_ok h
      obtain ⟨i0, hi0, h⟩ := Server.bind_ok h
      obtain ⟨i1, hi1, h⟩ := Server.bind_ok h
      have hfrag : Fragment q := by
        refine .inr ⟨hq, nxt, ?_, rd_some hnxt⟩
        by_cases hx : isExtensionHeader nxt = true
        · simp [isExtensionHeader] at hx ⊢
          tauto
        · rw [walkExt_upper true q.data nxt 40 (fun h => hx ((isExt_iff nxt).2 h))] at hr
          cases hr
          exact absurd (by decide) hx
      have hid : ∀ x, ident q = some x → x = [i0.1, i0.2, i1.1, i1.2] := by
        intro x hx
        unfold ident at hx
        rw [if_neg hne] at hx
        split at hx
        · rename_i h6
          rw [rd_some hnxt] at h6
          cases h6
          have : walkExt true q.data (turns q.data) 44 40 = .ok (some (44, 40)) := by
            unfold turns
            rw [walkExt]
            rfl
          rw [this] at hr
          cases hr
          have e0 := rd16_bytes hi0
          have e1 := rd16_bytes hi1
          cases hx
          unfold bytesAt at *
          rw [show (4 : Nat) = 2 + 2 from rfl, List.take_add, e0, List.drop_drop, e1]
          rfl
        · cases hx
      split at h
      · obtain ⟨⟨ht, hd⟩, _, h⟩ := Server.bind_ok h
        refine upper6_of h ?_
        intro p h1 h2 h3 h4
        have h1' : p.rc % 4 = 1 := h1
        refine fragOf_first hfrag (by omega) h2 ?_ hid
        rw [h3, h4, hends]
      · cases h
        exact .inr fun _ => ⟨hfrag, fun _ => ⟨hends.symm, hid⟩, fun h => absurd h (by show ¬ (2 : Int) % 2 = 1; decide)⟩
    · exact upper6_of h (fun p h1 _ _ _ => fragOf_zero h1)

theorem key_of {ue : Nat} {q : Queued} {p : Parsed} (h : getHashKey ue q.proto q.data = .ok p) : p.rc < 0 ∨ FragOf q p := by
  unfold getHashKey at h
  split at h
  · rename_i hq; exact v4_of hq h
  split at h
  · rename_i hq; exact v6_of hq h
  · cases h; exact .inl (by decide)

/-! ### All packets -/

/-- What the handler decides for any packet that is not cut off. -/
theorem lb_cases {c : LbConf} (hd : MagInv c.magd) (ht : ∀ d own, c.tier = some (d, own) → MagInv d) {q : Queued} (hw : Whole q.proto q.data) :
    ∃ act, lbDecide c q.proto q.data = .ok act ∧
      (act = .verdict (-1) ∨
        (∃ fw d own, act = .verdict fw ∧ Fragment q ∧ c.tier = some (d, own) ∧ fw ∈ activeMarks d.active ∧ fw ≠ own) ∨
        (∃ fw, (act = .verdict fw ∨ ∃ k, act = .first k fw ∧ Fragment q ∧ KeyOf q k) ∧ (activeMarks c.magd.active ≠ ∅ → fw ∈ activeMarks c.magd.active) ∧ (activeMarks c.magd.active = ∅ → fw = c.notargets)) ∨
        ∃ k, act = .later k ∧ Fragment q ∧ KeyOf q k) := by
  obtain ⟨p, hp⟩ := Server.whole_ok hw c.udpEncap
  unfold lbDecide
  rw [hp]
  simp only [Res.ok_bind, Res.pure_eq]
  by_cases hrc : p.rc < 0
  · rw [if_pos hrc]
    exact ⟨_, rfl, .inl rfl⟩
  rw [if_neg hrc]
  have hf := (Server.key_fragid hp).resolve_left hrc
  have hk := (key_of hp).resolve_left hrc
  obtain ⟨fw, e1, h1⟩ := target_cases hd (hashKey p.key c.hashMode)
  have hend : ∃ act, (if p.rc % 4 ≠ 0 ∧ p.rc % 2 = 0 then Res.ok (LbAction.later p.key) else
      Maglev.target c.magd (hashKey p.key c.hashMode) >>= fun fw =>
        if fw < 0 then .ok (.verdict c.notargets) else if p.rc % 2 = 1 then (withFragid p >>= fun k => .ok (.first k fw)) else .ok (.verdict fw)) = .ok act ∧
      (act = .verdict (-1) ∨
        (∃ fw d own, act = .verdict fw ∧ Fragment q ∧ c.tier = some (d, own) ∧ fw ∈ activeMarks d.active ∧ fw ≠ own) ∨
        (∃ fw, (act = .verdict fw ∨ ∃ k, act = .first k fw ∧ Fragment q ∧ KeyOf q k) ∧ (activeMarks c.magd.active ≠ ∅ → fw ∈ activeMarks c.magd.active) ∧ (activeMarks c.magd.active = ∅ → fw = c.notargets)) ∨
        ∃ k, act = .later k ∧ Fragment q ∧ KeyOf q k) := by
    by_cases h4 : p.rc % 4 ≠ 0 ∧ p.rc % 2 = 0
    · rw [if_pos h4]
      exact ⟨_, rfl, .inr (.inr (.inr ⟨_, rfl, (hk h4.1).1, (hk h4.1).2.1 h4.2⟩))⟩
    rw [if_neg h4, e1, Res.ok_bind]
    rcases h1 with ⟨g1, g2, g3⟩ | ⟨g1, g2⟩
    · rw [if_neg (by omega)]
      by_cases h2 : p.rc % 2 = 1
      · rw [if_pos h2]
        have := hf h2
        have hk' := hk (by omega)
        cases hx : p.fragid with
        | none => exact absurd hx this
        | some ab =>
          obtain ⟨a, b⟩ := ab
          have hw : withFragid p = .ok (p.key.setId a b (0, 0) (0, 0)) := by unfold withFragid; rw [hx]
          rw [hw]
          exact ⟨_, rfl, .inr (.inr (.inl ⟨fw, .inr ⟨_, rfl, hk'.1, hk'.2.2 h2 _ hw⟩, fun _ => g2, fun h => absurd h g1⟩))⟩
      · rw [if_neg h2]
        exact ⟨_, rfl, .inr (.inr (.inl ⟨fw, .inl rfl, fun _ => g2, fun h => absurd h g1⟩))⟩
    · rw [if_pos (by omega)]
      exact ⟨_, rfl, .inr (.inr (.inl ⟨c.notargets, .inl rfl, fun h => absurd g1 h, fun _ => rfl⟩))⟩
  by_cases h4 : p.rc % 4 ≠ 0
  · rw [if_pos h4]
    obtain ⟨o, ho, hr⟩ := redirect_cases ht p.key
    rw [ho]
    cases o with
    | some fw' =>
      obtain ⟨d, own, a, b, c'⟩ := hr fw' rfl
      exact ⟨_, rfl, .inr (.inl ⟨fw', d, own, rfl, (hk h4).1, a, b, c'⟩)⟩
    | none => exact hend
  · rw [if_neg h4]
    exact hend

/-! ### Flows -/

theorem flow_key {ue : Nat} {q : Queued} {f : Tuple} (h : FlowOf ue q f) :
    getHashKey ue q.proto q.data = .ok { rc := 0, key := flowKey f.src f.dst f.proto f.sport f.dport, fragid := none } := by
  rcases h with ⟨x, l, h1, h2, h3, h4, h5, h6, h7, h8, rfl⟩ | ⟨x, l, h1, h2, h4, h5, h6, h7, h8, rfl⟩
  · rw [h6, h7]
    exact Props.C14_ipv4_five_tuple ue x l h1 h2 h3 h4 h5 h8
  · rw [h6, h7]
    exact Props.C15_ipv6_five_tuple_partial ue x l h1 h2 h4 h5 h8

/-- Packets of a flow get what follows from the flow. -/
theorem flow_decide {c : LbConf} (hd : MagInv c.magd) (f : Tuple) :
    ∃ fw, (activeMarks c.magd.active ≠ ∅ → fw ∈ activeMarks c.magd.active) ∧ (activeMarks c.magd.active = ∅ → fw = c.notargets) ∧
      ∀ q', FlowOf c.udpEncap q' f → lbDecide c q'.proto q'.data = .ok (.verdict fw) := by
  obtain ⟨x, e, hx⟩ := target_cases hd (hashKey (flowKey f.src f.dst f.proto f.sport f.dport) c.hashMode)
  refine ⟨if x < 0 then c.notargets else x, ?_, ?_, ?_⟩
  · intro hne
    rcases hx with ⟨_, hx, h0⟩ | ⟨hx, _⟩
    · rw [if_neg (by omega)]; exact hx
    · exact absurd hx hne
  · intro he
    rcases hx with ⟨hx, _⟩ | ⟨_, hx⟩
    · exact absurd he hx
    · rw [if_pos (by omega)]
  · intro q' h'
    obtain ⟨y, e', hy⟩ := lbDecide_unfrag hd (flow_key h') (Int.le_refl 0) rfl
    rw [hy]
    have : y = x := by
      have := e'.symm.trans e
      cases this
      rfl
    rw [this]

/-! ### The whole -/

/-- The configuration that the user gave. -/
def cfgOf (p : Proc) : Cfg := ⟨p.tshm, p.lbshm, p.s.notargets, p.s.udpEncap⟩

/-- What holds between the events. -/
structure Inv (N MB MF T : Nat) (w : Store) (p : Proc) (S : Lbs) (past recent : List (Queued × Int)) (t : Nat) : Prop where
  has : Has w S
  small : Small S
  nt : -2147483648 ≤ p.s.notargets ∧ p.s.notargets < 2147483648
  there : S p.tshm ≠ none
  tier : ∀ j, p.lbshm = some j → S j ≠ none
  range : ∀ q r, (q, r) ∈ past → -2147483648 ≤ r ∧ r < 2147483648
  table : ∃ t0 h, t0 ≤ t ∧ Frag.FInv N MB MF T p.ft t0 0 ∧ Orig h p.ft t0 ∧
    ∀ a v, (a, v) ∈ h → ∃ q c, (q, v) ∈ past ∧ a.prog = .lb c ∧ a.proto = q.proto ∧ a.data = q.data ∧ MagInv c.magd ∧ (∀ d own, c.tier = some (d, own) → MagInv d) ∧ Whole q.proto q.data
  same : ∀ c, conf w p = some c → ∀ q r f, (q, r) ∈ recent → FlowOf p.s.udpEncap q f → lbDecide c q.proto q.data = .ok (.verdict r)

theorem apart_keeps {c : Cfg} {l : Line} (ha : Apart c l) {S : Lbs} {k : List Char} (hk : k = c.tshm ∨ c.lbshm = some k) (h : S k ≠ none) : l.apply S k ≠ none := by
  have hne : ∀ n, n ≠ c.tshm ∧ c.lbshm ≠ some n → k ≠ n := by
    rintro n ⟨h1, h2⟩ rfl
    rcases hk with rfl | hk
    · exact h1 rfl
    · exact h2 hk
  cases l with
  | init n own M N =>
    unfold Line.apply
    dsimp only
    split
    · unfold Spec.Session.set
      rw [if_neg (hne n ha)]
      exact h
    · exact h
  | delete n =>
    simp only [Line.apply, Spec.Session.set]
    rw [if_neg (hne n ha)]
    exact h
  | activate n ms =>
    simp only [Line.apply]
    cases e : S n with
    | none => exact h
    | some lb =>
      unfold Spec.Session.set
      dsimp only
      split
      · simp
      · exact h
  | deactivate n ms =>
    simp only [Line.apply]
    cases e : S n with
    | none => exact h
    | some lb =>
      unfold Spec.Session.set
      dsimp only
      split
      · simp
      · exact h

/-- What the handler works with is what the user has configured. -/
theorem conf_ok {N MB MF T : Nat} {w : Store} {p : Proc} {S : Lbs} {past recent : List (Queued × Int)} {t : Nat} (i : Inv N MB MF T w p S past recent t) :
    ∃ c lb, conf w p = some c ∧ c.udpEncap = p.s.udpEncap ∧ c.notargets = p.s.notargets ∧ S p.tshm = some lb ∧ MagInv c.magd ∧ activeMarks c.magd.active = lb.targets ∧
      ∀ d own, c.tier = some (d, own) → MagInv d ∧ ∃ j lb', p.lbshm = some j ∧ S j = some lb' ∧ activeMarks d.active = lb'.targets ∧ own = lb'.own := by
  rcases i.has p.tshm with ⟨_, h⟩ | ⟨s, lb, h1, h2, hs⟩
  · exact absurd h i.there
  unfold conf
  rw [h1]
  dsimp only
  cases hj : p.lbshm with
  | none => exact ⟨_, lb, rfl, rfl, rfl, h2, hs.inv, hs.targets, fun d own h => by cases h⟩
  | some j =>
    rcases i.has j with ⟨_, h⟩ | ⟨u, lb', g1, g2, hu⟩
    · exact absurd h (i.tier j hj)
    dsimp only
    rw [g1]
    dsimp only
    refine ⟨_, lb, rfl, rfl, rfl, h2, hs.inv, hs.targets, ?_⟩
    intro d own h
    cases h
    exact ⟨hu.inv, j, lb', rfl, g2, hu.targets, hu.own⟩

theorem value_lt2 (a b : UInt8) : value [a, b] < 65536 := by
  have := a.toNat_lt
  have := b.toNat_lt
  simp [value]
  omega

theorem value_lt4 (a b c d : UInt8) : value [a, b, c, d] < 4294967296 := by
  have := a.toNat_lt
  have := b.toNat_lt
  have := c.toNat_lt
  have := d.toNat_lt
  simp [value]
  omega

/-- The bytes of one answer. -/
theorem encode_one {page : Nat} (hp : 40 ≤ page) {m : Nfq.Msg} {q : Queued} (hm : Carries m q) {v : Nfq.Verdict} {r : Int} (ha : Answers v q r) (h2 : r < 2147483648) :
    ∃ o, encode page [v] = .ok [o] ∧ Reads o q r := by
  obtain ⟨bs, e, _, hr⟩ := Nl.verdict_ok hp v
  refine ⟨bs, ?_, v.mark % 4294967296, v.verdict % 4294967296, ?_, ?_, ?_⟩
  · simp only [encode, e, Res.ok_bind, Res.pure_eq]
  · rw [hr, ha.1, ha.2.1]
    obtain ⟨_, hq, _, _, h, _, hid, _⟩ := hm
    have h1 : q.queue < 65536 := by rw [hq]; exact value_lt2 _ _
    have h2 : q.id < 4294967296 := by rw [hid]; exact value_lt4 _ _ _ _
    rw [Nat.mod_eq_of_lt h1, Nat.mod_eq_of_lt h2]
  · intro hneg
    rw [ha.2.2.1 hneg]
    rfl
  · intro hpos
    obtain ⟨h3, h4⟩ := ha.2.2.2 hpos
    rw [h3]
    refine ⟨rfl, ?_⟩
    rw [Nat.mod_eq_of_lt (by omega)]
    exact h4

/-- One packet. -/
theorem packet_ok {N MB MF T page : Nat} (hp : 40 ≤ page) {w : Store} {p : Proc} {S : Lbs} {past recent : List (Queued × Int)} {t : Nat} (i : Inv N MB MF T w p S past recent t)
    {q : Queued} {m : Nfq.Msg} {x : Ctx} (hm : Carries m q) (hw : Whole q.proto q.data) (ht : t ≤ x.now) (h64 : x.now < 2 ^ 64) :
    ∃ ft' o r, packet page w p m x = .ok ({ p with ft := ft' }, [o]) ∧ Reads o q r ∧
      (r = -1 ∨ Direct (cfgOf p) S r ∨ Fragment q ∧ (Tier (cfgOf p) S r ∨ ∃ q', (q', r) ∈ past ∧ Fragment q' ∧ SameDatagram q q')) ∧
      (∀ f, FlowOf p.s.udpEncap q f → Direct (cfgOf p) S r ∧ ∀ q' r', (q', r') ∈ recent → FlowOf p.s.udpEncap q' f → r' = r) ∧
      Inv N MB MF T w { p with ft := ft' } S ((q, r) :: past) ((q, r) :: recent) x.now := by
  obtain ⟨c, lb, hc, hue, hnt, hS, hd, hact, htier⟩ := conf_ok i
  obtain ⟨t0, h, ht0, hfi, hor, hh⟩ := i.table
  obtain ⟨act, hact2, hcases⟩ := lb_cases hd (fun d own e => (htier d own e).1) hw
  let a : Arrival := ⟨.lb c, q.proto, q.data, x.now, x.id, x.newOk, x.rcAsm⟩
  have haa : action a = .ok act := hact2
  obtain ⟨ft', v, inj, t', hhandle, _, ht', hfi', hor', hlater⟩ := handle_inv hfi hor a (by show t0 ≤ x.now; omega) h64 haa
  have hdirect : ∀ fw, (activeMarks c.magd.active ≠ ∅ → fw ∈ activeMarks c.magd.active) → (activeMarks c.magd.active = ∅ → fw = c.notargets) → Direct (cfgOf p) S fw := by
    intro fw h1 h2
    rw [hact] at h1 h2
    rw [hnt] at h2
    exact ⟨lb, hS, h1, h2⟩
  have hpast : ∀ k, KeyOf q k → Reg h k v → ∃ q', (q', v) ∈ past ∧ Fragment q' ∧ SameDatagram q q' := by
    rintro k hk ⟨h1, f, h2, hs, hf, _⟩
    obtain ⟨q', c', hq', e1, e2, e3, i1, i2, i3⟩ := hh f v (by rw [hs]; simp)
    obtain ⟨act', e4, hc'⟩ := lb_cases i1 i2 i3
    have : action f = .ok act' := by
      unfold action
      rw [e1]
      dsimp only
      rw [e2, e3, e4]
    unfold Spec.E2E.IsFirst at hf
    rw [this] at hf
    cases hf
    rcases hc' with e | ⟨_, _, _, e, _⟩ | ⟨fw, e | ⟨k', e, hfr, hk'⟩, _⟩ | ⟨_, e, _⟩
    · cases e
    · cases e
    · cases e
    · cases e
      exact ⟨q', hq', hfr, same_of_key hk hk'⟩
    · cases e
  have hvals : v = -1 ∨ Direct (cfgOf p) S v ∨ Fragment q ∧ (Tier (cfgOf p) S v ∨ ∃ q', (q', v) ∈ past ∧ Fragment q' ∧ SameDatagram q q') := by
    rcases hcases with rfl | ⟨fw, d, own, rfl, hfr, e, h1, h2⟩ | ⟨fw, rfl | ⟨k, rfl, _, _⟩, h1, h2⟩ | ⟨k, rfl, hfr, hk⟩
    · have : handle p.ft a = .ok (p.ft, -1, []) := by unfold handle; rw [haa]; rfl
      rw [this] at hhandle
      cases hhandle
      exact .inl rfl
    · have : handle p.ft a = .ok (p.ft, fw, []) := by unfold handle; rw [haa]; rfl
      rw [this] at hhandle
      cases hhandle
      obtain ⟨_, j, lb', g1, g2, g3, g4⟩ := htier d own e
      refine .inr (.inr ⟨hfr, .inl ⟨j, lb', g1, g2, ?_, ?_⟩⟩)
      · rw [← g3]; exact h1
      · rw [← g4]; exact h2
    · have : handle p.ft a = .ok (p.ft, fw, []) := by unfold handle; rw [haa]; rfl
      rw [this] at hhandle
      cases hhandle
      exact .inr (.inl (hdirect _ h1 h2))
    · obtain ⟨ft'', v', out, e1, _, e2⟩ := finish_first hfi a (by show t0 ≤ x.now; omega) k fw
      have : handle p.ft a = .ok (ft'', v', out.injected) := by unfold handle; rw [haa]; exact e1
      rw [this] at hhandle
      cases hhandle
      rcases e2 with ⟨_, rfl⟩ | ⟨_, rfl⟩
      · exact .inr (.inl (hdirect _ h1 h2))
      · exact .inl rfl
    · rcases hlater k haa with h | h
      · exact .inl h
      · exact .inr (.inr ⟨hfr, .inr (hpast k hk h)⟩)
  have hrange : -2147483648 ≤ v ∧ v < 2147483648 := by
    rcases hvals with rfl | ⟨lb', e, h1, h2⟩ | ⟨_, ⟨n, lb', _, e, h1, _⟩ | ⟨q', h1, _, _⟩⟩
    · omega
    · by_cases hem : lb'.targets = ∅
      · rw [h2 hem]; exact i.nt
      · have := i.small _ _ e v (h1 hem); omega
    · have := i.small _ _ e v h1; omega
    · exact i.range _ _ h1
  have hhand : handler c x p.ft q.proto q.data q.data.length = .ok (ft', v) := by
    unfold handler
    rw [List.take_length]
    show (handle p.ft a >>= _) = _
    rw [hhandle]
    rfl
  obtain ⟨vd, hq, hans⟩ := Nfq.queueCb_carries (handler c x) p.ft ft' m q v hm hhand hrange.1 hrange.2
  obtain ⟨o, ho, hreads⟩ := encode_one hp hm hans hrange.2
  have hflow : ∀ f, FlowOf p.s.udpEncap q f → lbDecide c q.proto q.data = .ok (.verdict v) ∧ Direct (cfgOf p) S v ∧ ∀ q' r', (q', r') ∈ recent → FlowOf p.s.udpEncap q' f → r' = v := by
    intro f hf
    rw [← hue] at hf
    obtain ⟨fw, h1, h2, h3⟩ := flow_decide hd f
    have e := h3 q hf
    have hv : v = fw := by
      have ha2 : action a = .ok (.verdict fw) := e
      have : handle p.ft a = .ok (p.ft, fw, []) := by unfold handle; rw [ha2]; rfl
      rw [this] at hhandle
      cases hhandle
      rfl
    rw [hv]
    refine ⟨e, hdirect _ h1 h2, ?_⟩
    intro q' r' hm' hf'
    have := i.same c hc q' r' f hm' hf'
    rw [← hue] at hf'
    rw [h3 q' hf'] at this
    cases this
    rfl
  refine ⟨ft', o, v, ?_, hreads, hvals, fun f hf => (hflow f hf).2, ?_⟩
  · unfold packet
    rw [hc]
    dsimp only
    rw [hq, Res.ok_bind]
    dsimp only
    rw [ho, Res.ok_bind, if_neg (by decide)]
    rfl
  · refine ⟨i.has, i.small, i.nt, i.there, i.tier, ?_, ?_, ?_⟩
    · intro q' r' hm'
      rcases List.mem_cons.1 hm' with e | hm'
      · cases e; exact hrange
      · exact i.range q' r' hm'
    · refine ⟨t', h ++ [(a, v)], ht', hfi', hor', ?_⟩
      intro b u hb
      rcases List.mem_append.1 hb with hb | hb
      · obtain ⟨q', c', g1, g2⟩ := hh b u hb
        exact ⟨q', c', List.mem_cons_of_mem _ g1, g2⟩
      · rw [List.mem_singleton] at hb
        cases hb
        exact ⟨q, c, List.mem_cons_self, rfl, rfl, rfl, hd, fun d own e => (htier d own e).1, hw⟩
    · intro c' hc' q' r' f hm' hf'
      have hcc : c' = c := by
        have : conf w p = some c' := hc'
        rw [hc] at this
        cases this
        rfl
      rw [hcc]
      rcases List.mem_cons.1 hm' with e | hm'
      · cases e
        exact (hflow f hf').1
      · exact i.same c hc q' r' f hm' hf'

/-- All events. -/
theorem run_right {N MB MF T page : Nat} (hp : 40 ≤ page) {nm : Str → Option Str} {rnd : Nat → Nat} : ∀ (evs : List Ev) {w : Store} {p : Proc} {S : Lbs} {past recent : List (Queued × Int)} {t : Nat},
    Inv N MB MF T w p S past recent t → Good nm (cfgOf p) t evs →
    ∃ w' p' outs, run nm rnd page w p (evs.map Ev.event) = .ok (w', p', outs) ∧ Right (cfgOf p) S past recent evs outs
  | [], w, p, S, past, recent, t, _, _ => ⟨w, p, [], rfl, rfl⟩
  | .line l :: evs, w, p, S, past, recent, t, i, hg => by
    obtain ⟨hn, hr, ha, hg⟩ := hg
    have i' : ∀ w', Has w' (l.apply S) → Inv N MB MF T w' p (l.apply S) past [] t := by
      intro w' hw'
      exact ⟨hw', small_apply i.small l hr, i.nt, apart_keeps ha (.inl rfl) i.there, fun j hj => apart_keeps ha (.inr hj) (i.tier j hj), i.range, i.table, fun _ _ _ _ _ h => by cases h⟩
    rcases line_does (rnd := rnd) i.has l hn hr with ⟨w1, t1, e, h', _⟩ | ⟨e, h', _⟩
    · obtain ⟨w2, p2, outs, e2, r2⟩ := run_right hp (nm := nm) (rnd := rnd) evs (i' w1 h') hg
      refine ⟨w2, p2, outs, ?_, r2⟩
      have hs : step nm rnd page w p (Ev.line l).event = .ok (w1, p, []) := by
        simp only [Ev.event, step, e, not_touched p l hn (c := cfgOf p) rfl rfl ha e, Bool.false_eq_true, if_false]
      rw [List.map_cons, run, hs, Res.ok_bind]
      dsimp only
      rw [e2]
      rfl
    · obtain ⟨w2, p2, outs, e2, r2⟩ := run_right hp (nm := nm) (rnd := rnd) evs (i' w h') hg
      refine ⟨w2, p2, outs, ?_, r2⟩
      have hs : step nm rnd page w p (Ev.line l).event = .ok (w, p, []) := by
        simp only [Ev.event, step, e]
      rw [List.map_cons, run, hs, Res.ok_bind]
      dsimp only
      rw [e2]
      rfl
  | .packet q m x :: evs, w, p, S, past, recent, t, i, hg => by
    obtain ⟨hm, hw, ht, h64, hg⟩ := hg
    obtain ⟨ft', o, r, e, h1, h2, h3, i'⟩ := packet_ok hp i hm hw ht h64
    obtain ⟨w2, p2, outs, e2, r2⟩ := run_right hp (nm := nm) (rnd := rnd) evs i' hg
    refine ⟨w2, p2, o :: outs, ?_, o, outs, r, rfl, h1, h2, h3, r2⟩
    have hs : step nm rnd page w p (Ev.packet q m x).event = .ok (w, { p with ft := ft' }, [o]) := by
      simp only [Ev.event, step, e, Res.ok_bind, Res.pure_eq]
    rw [List.map_cons, run, hs, Res.ok_bind]
    dsimp only
    rw [e2]
    rfl

/-! ### The start -/

theorem good_lb : GoodNames lbOpts := by unfold GoodNames; decide +kernel

/-- The options of a launch. -/
def launchItems (l : Launch) : List Item :=
  [.eq 5 l.tshm] ++ (l.lbshm.map (Item.eq 6)).toList ++ (l.notargets.map (fun n => Item.eq 7 (Spec.Session.dec n))).toList ++ [.eq 4 (Spec.Session.dec l.encap), .eq 9 (Spec.Session.dec l.queue)]

theorem launch_argv (l : Launch) : l.argv = "lb".toList :: ((launchItems l).map (Item.render lbOpts)).flatten := by
  obtain ⟨t, u, n, e, q⟩ := l
  cases u <;> cases n <;> rfl

theorem launch_items (l : Launch) (it : Item) (h : it ∈ launchItems l) : it.WF lbOpts ∧ ∃ i a, it.got = some (.opt i (some a)) ∧ i ∈ [4, 5, 6, 7, 9] := by
  obtain ⟨t, u, n, e, q⟩ := l
  have key : ∀ i ∈ [4, 5, 6, 7, 9], ∀ a, (Item.eq i a).WF lbOpts ∧ ∃ j b, (Item.eq i a).got = some (.opt j (some b)) ∧ j ∈ [4, 5, 6, 7, 9] := by
    intro i hi a
    refine ⟨?_, i, a, rfl, hi⟩
    simp only [List.mem_cons, List.not_mem_nil, or_false] at hi
    rcases hi with rfl | rfl | rfl | rfl | rfl <;> exact ⟨_, rfl, rfl⟩
  cases u <;> cases n <;> simp only [launchItems, Option.map_none, Option.map_some, Option.toList_none, Option.toList_some, List.append_nil, List.cons_append, List.nil_append, List.mem_cons, List.not_mem_nil, or_false] at h
  · rcases h with rfl | rfl | rfl <;> exact key _ (by decide) _
  · rcases h with rfl | rfl | rfl | rfl <;> exact key _ (by decide) _
  · rcases h with rfl | rfl | rfl | rfl <;> exact key _ (by decide) _
  · rcases h with rfl | rfl | rfl | rfl | rfl <;> exact key _ (by decide) _

theorem parse_launch (l : Launch) : ∃ vars k, parseOrDie lbOpts l.argv = .ok (vars, k) ∧ valueOf vars "tshm".toList = some l.tshm ∧ valueOf vars "lbshm".toList = l.lbshm ∧
    valueOf vars "notargets_fwmark".toList = some ((l.notargets.map Spec.Session.dec).getD "-1".toList) ∧ valueOf vars "sctp_encap".toList = some (Spec.Session.dec l.encap) ∧
    valueOf vars "queue".toList = some (Spec.Session.dec l.queue) ∧ valueOf vars "mtu".toList = some "1500".toList ∧ valueOf vars "tun".toList = none ∧ valueOf vars "reassembler".toList = some "0".toList ∧
    valueOf vars "hash_mode".toList = some "1".toList ∧ valueOf vars "qlength".toList = some "1024".toList ∧ valueOf vars "ft_size".toList = some "500".toList ∧ valueOf vars "ft_buckets".toList = some "500".toList ∧
    valueOf vars "ft_ttl".toList = some "200".toList := by
  obtain ⟨vars, k, h1, h2, -⟩ := parse_items lbOpts (by decide) good_lb (launchItems l) (fun it h => (launch_items l it h).1)
    (by
      intro i a h
      obtain ⟨it, hit, e⟩ := List.mem_filterMap.1 h
      obtain ⟨_, j, b, e', hj⟩ := launch_items l it hit
      rw [e'] at e
      cases e
      simp only [List.mem_cons, List.not_mem_nil, or_false] at hj
      rcases hj with rfl | rfl | rfl | rfl | rfl <;> decide)
    (by obtain ⟨t, u, n, e, q⟩ := l; cases u <;> cases n <;> rfl) "lb".toList
  rw [← launch_argv] at h1
  obtain ⟨t, u, n, e, q⟩ := l
  refine ⟨vars, k, h1, ?_⟩
  have v5 := h2 5 (row "tshm" (some "nfqlb")) rfl
  have v6 := h2 6 (row "lbshm" none) rfl
  have v7 := h2 7 (row "notargets_fwmark" (some "-1")) rfl
  have v4 := h2 4 (row "sctp_encap" (some "0")) rfl
  have v9 := h2 9 (row "queue" (some "2")) rfl
  have v1 := h2 1 (row "mtu" (some "1500")) rfl
  have vt := h2 2 (row "tun" none) rfl
  have v3 := h2 3 (row "reassembler" (some "0")) rfl
  have v8 := h2 8 (row "hash_mode" (some "1")) rfl
  have va := h2 10 (row "qlength" (some "1024")) rfl
  have vb := h2 12 (row "ft_size" (some "500")) rfl
  have vc := h2 13 (row "ft_buckets" (some "500")) rfl
  have vd := h2 15 (row "ft_ttl" (some "200")) rfl
  cases u <;> cases n <;> exact ⟨v5, v6, v7, v4, v9, v1, vt, v3, v8, va, vb, vc, vd⟩

/-- The sizes of the pools are no problem. -/
def Mem (e : Start.Env) : Prop := e.sizeofBucket < 4000000 ∧ e.sizeofFragData < 4000000

theorem launch_start {e : Start.Env} (hm : Mem e) (l : Launch) {vars : List Opt} (hn : ∀ n, l.notargets = some n → n ≤ 2147483647) (he : l.encap ≤ 65535) (hq : l.queue ≤ 65535)
    (h7 : valueOf vars "notargets_fwmark".toList = some ((l.notargets.map Spec.Session.dec).getD "-1".toList)) (h4 : valueOf vars "sctp_encap".toList = some (Spec.Session.dec l.encap))
    (h9 : valueOf vars "queue".toList = some (Spec.Session.dec l.queue)) (h1 : valueOf vars "mtu".toList = some "1500".toList) (ht : valueOf vars "tun".toList = none)
    (h3 : valueOf vars "reassembler".toList = some "0".toList) (h8 : valueOf vars "hash_mode".toList = some "1".toList) (ha : valueOf vars "qlength".toList = some "1024".toList)
    (hb : valueOf vars "ft_size".toList = some "500".toList) (hc : valueOf vars "ft_buckets".toList = some "500".toList) (hd : valueOf vars "ft_ttl".toList = some "200".toList) :
    Start.start false e vars = .ok ⟨l.cfg.notargets, -1, l.encap, 1, false, 1500, none, 500, 500, 0, 200, none, 1024, [l.queue]⟩ := by
  have k7 : Start.num vars "notargets_fwmark" = .ok l.cfg.notargets := by
    unfold Start.num
    rw [h7]
    obtain ⟨t, u, n, e, q⟩ := l
    cases n with
    | none => exact congrArg Res.ok (by decide +kernel : Remote.atoi "-1".toList = -1)
    | some n => exact congrArg Res.ok (atoi_dec (hn n rfl))
  have k4 : Start.num vars "sctp_encap" = .ok (l.encap : Int) := by
    unfold Start.num
    rw [h4]
    exact congrArg Res.ok (atoi_dec (by omega))
  have k1 : Start.num vars "mtu" = .ok 1500 := by unfold Start.num; rw [h1]; rfl
  have k3 : Start.num vars "reassembler" = .ok 0 := by unfold Start.num; rw [h3]; rfl
  have k8 : Start.num vars "hash_mode" = .ok 1 := by unfold Start.num; rw [h8]; rfl
  have ka : Start.num vars "qlength" = .ok 1024 := by unfold Start.num; rw [ha]; rfl
  have kb : Start.num vars "ft_size" = .ok 500 := by unfold Start.num; rw [hb]; rfl
  have kc : Start.num vars "ft_buckets" = .ok 500 := by unfold Start.num; rw [hc]; rfl
  have kd : Start.num vars "ft_ttl" = .ok 200 := by unfold Start.num; rw [hd]; rfl
  have kq : Start.queues e.thread (Spec.Session.dec l.queue) = .ok [l.queue] := by
    unfold Start.queues
    have : ':' ∉ Spec.Session.dec l.queue := Start.colon_not_digits l.queue
    rw [if_neg this, atoi_dec (by omega)]
    refine congrArg Res.ok ?_
    congr 1
    omega
  unfold Start.start
  rw [k7, Res.ok_bind]
  have kn : Start.numIf false vars "nolb_fwmark" (-1) = .ok (-1) := rfl
  rw [kn, Res.ok_bind, k1, Res.ok_bind, if_neg (by decide)]
  have k4' : Start.numIf (!false) vars "sctp_encap" 0 = .ok (l.encap : Int) := k4
  rw [k4', Res.ok_bind, k8, Res.ok_bind, ht]
  have ko : Start.openTun e.dev none 1500 = .ok none := rfl
  rw [ko, Res.ok_bind, kb, Res.ok_bind, kc, Res.ok_bind]
  have kf : Start.numIf (none : Option Nat).isSome vars "ft_frag" 0 = .ok 0 := rfl
  rw [kf, Res.ok_bind, kd, Res.ok_bind, k3, Res.ok_bind, ka, Res.ok_bind]
  dsimp only
  rw [Start.makePools_ok, Res.ok_bind, h9]
  · dsimp only
    rw [kq, Res.ok_bind]
    have : Start.uns (l.encap : Int) = l.encap := Start.uns_nat (by omega)
    rw [this]
    rfl
  · have := hm.1
    show 500 * _ < _
    omega
  · show 0 * _ < _
    omega
  · have := hm.2
    show (500 + 500) * _ < _
    omega
  · intro n hn
    cases hn

theorem mapObj_ok {nm : Str → Option Str} {w : Store} {S : Lbs} (h : Has w S) {k : Str} (hn : nm k = some k) (hk : S k ≠ none) : mapObj nm w k = .ok k := by
  unfold mapObj
  rw [hn]
  dsimp only
  rcases h k with ⟨_, e⟩ | ⟨s, lb, e, _⟩
  · exact absurd e hk
  · rw [if_neg (by rw [e]; simp)]

/-- The program starts. -/
theorem boot_ok {nm : Str → Option Str} {e : Start.Env} (hm : Mem e) {w : Store} {S : Lbs} (h : Has w S) {l : Launch} (hl : l.Good nm S) :
    boot nm e w l.argv = .ok ⟨⟨l.cfg.notargets, -1, l.encap, 1, false, 1500, none, 500, 500, 0, 200, none, 1024, [l.queue]⟩, l.tshm, l.lbshm, Frag.create 500 500 0 1500 200 false⟩ := by
  obtain ⟨⟨t1, t2⟩, hu, hn, he, hq⟩ := hl
  obtain ⟨vars, k, h1, h5, h6, h7, h4, h9, hmtu, ht, h3, h8, ha, hb, hc, hd⟩ := parse_launch l
  have hs := launch_start hm l hn he hq h7 h4 h9 hmtu ht h3 h8 ha hb hc hd
  unfold boot
  rw [h1, Res.ok_bind]
  dsimp only
  rw [h5]
  dsimp only
  rw [mapObj_ok h t1 t2, Res.ok_bind, h6]
  cases hj : l.lbshm with
  | none =>
    dsimp only
    rw [hs]
    rfl
  | some u =>
    obtain ⟨u1, u2⟩ := hu u hj
    dsimp only
    rw [mapObj_ok h u1 u2, Res.ok_bind, hs]
    rfl

/-- Whatever the options are: what is so after the start. -/
theorem boot_inv {nm : Str → Option Str} {e : Start.Env} {w : Store} {S : Lbs} (h : Has w S) (hsm : Small S) {argv : List Str} {p : Proc} (hb : boot nm e w argv = .ok p) (h0 : 0 < p.s.hsize) :
    ∃ N MB MF T, Inv N MB MF T w p S [] [] 0 := by
  have hmap : ∀ {n k : Str}, mapObj nm w n = .ok k → S k ≠ none := by
    intro n k hk
    unfold mapObj at hk
    split at hk
    · cases hk
    · split at hk
      · cases hk
      · rename_i k' _ hne
        cases hk
        rcases h k with ⟨e, _⟩ | ⟨s, lb, _, e, _⟩
        · exact absurd e hne
        · rw [e]; simp
  have hst : ∀ {vars : List Opt} {s : Start.Started}, Start.start false e vars = .ok s → -2147483648 ≤ s.notargets ∧ s.notargets < 2147483648 := by
    intro vars s hs
    obtain ⟨nt, _, _, _, _, _, _, _, _, _, _, _, _, hnt, _, _, _, _, _, _, _, _, _, _, _, _, _, _, _, e1⟩ := Start.start_ok hs
    obtain ⟨t, _, rfl⟩ := Start.num_ok hnt
    have := Start.atoi_range t
    rw [e1]
    dsimp only
    omega
  have fin : ∀ (s : Start.Started) (k : Str) (j : Option Str), 0 < s.hsize → -2147483648 ≤ s.notargets ∧ s.notargets < 2147483648 → S k ≠ none → (∀ u, j = some u → S u ≠ none) →
      ∃ N MB MF T, Inv N MB MF T w ⟨s, k, j, s.table⟩ S [] [] 0 := by
    intro s k j hz hn hk hj
    refine ⟨_, _, _, _, h, hsm, hn, hk, hj, (fun _ _ h => by cases h), ⟨0, [], Nat.le_refl _, Frag.create_finv hz, ?_, (fun _ _ h => by cases h)⟩, (fun _ _ _ _ _ h => by cases h)⟩
    intro k e hv _
    have hv' : Frag.view (Frag.create s.hsize s.buckets s.frags s.mtu s.ttl s.reass.isSome) 0 k = some e := hv
    rw [Frag.create_view hz] at hv'
    cases hv'
  unfold boot at hb
  obtain ⟨⟨vars, k⟩, _, hb⟩ := Server.bind_ok hb
  dsimp only at hb
  split at hb
  · cases hb
  obtain ⟨k, hk, hb⟩ := Server.bind_ok hb
  split at hb
  · obtain ⟨s, hs, hb⟩ := Server.bind_ok hb
    cases hb
    exact fin s k none h0 (hst hs) (hmap hk) (fun _ h => by cases h)
  · obtain ⟨j, hj, hb⟩ := Server.bind_ok hb
    obtain ⟨s, hs, hb⟩ := Server.bind_ok hb
    cases hb
    exact fin s k (some j) h0 (hst hs) (hmap hk) (fun u h => by cases h; exact hmap hj)

end Nfqlb.Sys
