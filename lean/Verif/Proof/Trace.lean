import Verif.Proof.PktTotal
import Verif.Spec.Trace

/-! Tracing does not change what happens to packets. -/

set_option autoImplicit false

namespace Nfqlb.Trace

open Nfqlb Nfqlb.Spec Nfqlb.Spec.Srv Nfqlb.Spec.FLB Nfqlb.Spec.Pkt Nfqlb.Spec.Trc Nfqlb.FlowLb
open Nfqlb.Server (bind_ok flowLookup_total SInv)
open Nfqlb.Flow (SetOK Draw)

/-- The fwmark that is decided, if it is. -/
def markOf : LbAction → Option Int
  | .verdict fw => some fw
  | .later _ => none
  | .first _ fw => some fw

theorem decInt_eq (fw : Int) : decInt fw = if fw < 0 then '-' :: Nat.toDigits 10 fw.natAbs else Nat.toDigits 10 fw.natAbs := by
  unfold decInt CText.dec
  split
  · rw [show (-fw).toNat = fw.natAbs by omega]
  · rw [show fw.toNat = fw.natAbs by omega]

theorem Tells.pre {t : List Char} {fw : Int} (h : Tells t fw) (u : List Char) : Tells (u ++ t) fw := by
  obtain ⟨a, b, e⟩ := h
  exact ⟨u ++ a, b, by rw [e]; simp only [List.append_assoc]⟩

theorem Tells.post {t : List Char} {fw : Int} (h : Tells t fw) (u : List Char) : Tells (t ++ u) fw := by
  obtain ⟨a, b, e⟩ := h
  exact ⟨a, b ++ u, by rw [e]; simp only [List.append_assoc]⟩

theorem tells_mk (a : List Char) (fw : Int) (b : List Char) : Tells (a ++ ("fwmark=".toList ++ (decInt fw ++ ('\n' :: b)))) fw :=
  ⟨a, b, by rw [decInt_eq]; simp only [List.append_assoc, List.singleton_append]⟩

theorem comma_fwmark (x : List Char) : ", fwmark=".toList ++ x = ", ".toList ++ ("fwmark=".toList ++ x) := by
  rw [← List.append_assoc]; rfl

theorem no_target (x : List Char) : "NO target, fwmark=".toList ++ x = "NO target, ".toList ++ ("fwmark=".toList ++ x) := by
  rw [← List.append_assoc]; rfl

/-- None of the bits for packets, fragments and SCTP is on. -/
def Quiet (tr : Tr) : Prop := tr.on 1 = false ∧ tr.on 2 = false ∧ tr.on 4 = false

theorem Tr.line_off {tr : Tr} {bit : Nat} (h : tr.on bit = false) (text : List Char) : tr.line bit text = [] := by
  unfold Tr.line; rw [h]; rfl

theorem noLb_tells (tr : Tr) (conf : Conf) {tflow : Nat} (h : tflow ≠ 0) : Tells (noLb tr conf tflow) conf.nolb := by
  unfold noLb
  rw [if_pos h, no_target_assoc]
  refine Tells.pre ?_ _
  exact tells_mk _ _ []
where
  no_target_assoc : "NO target, fwmark=".toList ++ decInt conf.nolb ++ ['\n'] = "NO target, ".toList ++ ("fwmark=".toList ++ (decInt conf.nolb ++ ['\n'])) := by
    rw [List.append_assoc, no_target]

theorem noLb_quiet {tr : Tr} (hq : Quiet tr) (conf : Conf) : noLb tr conf 0 = [] := by
  unfold noLb
  rw [Tr.line_off hq.1]; rfl

/-- What the lookups do with tracing. -/
theorem lookup_facts {tr : Tr} {conf : Conf} {st st' : St} {proto : Nat} {data : Packet} {p : Parsed} {r : Pkt} {tf : Nat} {t : List Char} (h : pktLookup tr conf st proto data p = .ok (st', r, tf, t)) :
    FlowLb.pktLookup conf st proto data p = .ok (st', r) ∧ traceFind tr p.key proto data = .ok tf ∧
      (∃ v t0 u, traceMatch tr tf p.key proto data v = .ok t0 ∧ t = t0 ++ u) ∧
      (Quiet tr → tf = 0 → t = []) ∧
      (tf ≠ 0 → ∀ a fw, r = .done a → markOf a = some fw → Tells t fw ∨ (fw = -1 ∧ ∃ v q, getHashKey v proto data = .ok q ∧ q.rc < 0)) := by
  unfold pktLookup at h
  obtain ⟨⟨st1, lb1, v1⟩, e1, h⟩ := bind_ok h
  dsimp only at h
  obtain ⟨tf1, e2, h⟩ := bind_ok h
  obtain ⟨t0, e3, h⟩ := bind_ok h
  have h00 : tf1 = 0 → t0 = [] := by
    intro h0
    subst h0
    unfold traceMatch at e3
    rw [if_pos rfl] at e3
    cases e3; rfl
  unfold FlowLb.pktLookup
  rw [e1, Res.ok_bind]
  dsimp only
  split at h
  · rename_i hc
    rw [if_pos hc]
    obtain ⟨p2, e4, h⟩ := bind_ok h
    rw [e4, Res.ok_bind]
    split at h
    · rename_i hrc
      rw [if_pos hrc]
      cases h
      refine ⟨rfl, e2, ⟨_, _, _, e3, List.append_assoc ..⟩, ?_, ?_⟩
      · intro hq h0
        rw [h00 h0, Tr.line_off hq.2.2, Tr.line_off hq.2.2]; rfl
      · intro _ a fw ha hm
        cases ha; cases hm
        exact .inr ⟨rfl, _, _, e4, hrc⟩
    · rename_i hrc
      rw [if_neg hrc]
      obtain ⟨⟨st2, lb2, v2⟩, e5, h⟩ := bind_ok h
      rw [e5, Res.ok_bind]
      dsimp only at h ⊢
      split at h
      · rename_i hl
        rw [if_pos hl]
        cases h
        refine ⟨rfl, e2, ⟨_, _, _, e3, by rw [List.append_assoc, List.append_assoc]⟩, ?_, ?_⟩
        · intro hq h0
          rw [h00 h0, Tr.line_off hq.2.2, Tr.line_off hq.2.2, h0, noLb_quiet hq]; rfl
        · intro h0 a fw ha hm
          cases ha; cases hm
          exact .inl (Tells.pre (noLb_tells tr conf h0) _)
      · rename_i hl
        rw [if_neg hl]
        cases h
        refine ⟨rfl, e2, ⟨_, _, _, e3, rfl⟩, ?_, ?_⟩
        · intro hq h0
          rw [h00 h0, Tr.line_off hq.2.2]; rfl
        · intro h0 a fw ha hm
          cases ha
  · rename_i hc
    rw [if_neg hc]
    split at h
    · rename_i hl
      rw [if_pos hl]
      cases h
      refine ⟨rfl, e2, ⟨_, _, _, e3, rfl⟩, ?_, ?_⟩
      · intro hq h0
        rw [h00 h0, h0, noLb_quiet hq]; rfl
      · intro h0 a fw ha hm
        cases ha; cases hm
        exact .inl (Tells.pre (noLb_tells tr conf h0) _)
    · rename_i hl
      rw [if_neg hl]
      cases h
      refine ⟨rfl, e2, ⟨_, _, [], e3, (List.append_nil _).symm⟩, fun _ h0 => h00 h0, ?_⟩
      intro h0 a fw ha hm
      cases ha

theorem begin_facts {tr : Tr} {conf : Conf} {st st' : St} {proto : Nat} {data : Packet} {r : Pkt} {tf : Nat} {t : List Char} (h : pktBegin tr conf st proto data = .ok (st', r, tf, t)) :
    FlowLb.pktBegin conf st proto data = .ok (st', r) ∧
      (Quiet tr → tf = 0 → t = []) ∧
      (tf ≠ 0 → ∀ a fw, r = .done a → markOf a = some fw → Tells t fw ∨ (fw = -1 ∧ ∃ v q, getHashKey v proto data = .ok q ∧ q.rc < 0)) ∧
      ∃ p, getHashKey 0 proto data = .ok p ∧ (tf = 0 ∨ traceFind tr p.key proto data = .ok tf) ∧ (0 ≤ p.rc ∧ p.rc % 4 = 0 → traceFind tr p.key proto data = .ok tf ∧ ∃ v t0 u, traceMatch tr tf p.key proto data v = .ok t0 ∧ t = t0 ++ u) := by
  unfold pktBegin at h
  obtain ⟨p, e1, h⟩ := bind_ok h
  unfold FlowLb.pktBegin
  rw [e1, Res.ok_bind]
  split at h
  · rename_i hrc
    rw [if_pos hrc]
    cases h
    exact ⟨rfl, fun _ _ => rfl, fun h => absurd rfl h, p, rfl, .inl rfl, fun h => by omega⟩
  rename_i hrc
  rw [if_neg hrc]
  dsimp only at h ⊢
  have hend : (if p.rc % 4 ≠ 0 ∧ p.rc % 2 = 0 then Res.ok (st, Pkt.done (.later p.key), 0, []) else pktLookup tr conf st proto data p) = .ok (st', r, tf, t) →
      (if p.rc % 4 ≠ 0 ∧ p.rc % 2 = 0 then Res.ok (st, Pkt.done (.later p.key)) else FlowLb.pktLookup conf st proto data p) = .ok (st', r) ∧
      (Quiet tr → tf = 0 → t = []) ∧
      (tf ≠ 0 → ∀ a fw, r = .done a → markOf a = some fw → Tells t fw ∨ (fw = -1 ∧ ∃ v q, getHashKey v proto data = .ok q ∧ q.rc < 0)) ∧
      ∃ p', Res.ok p = .ok p' ∧ (tf = 0 ∨ traceFind tr p'.key proto data = .ok tf) ∧ (0 ≤ p'.rc ∧ p'.rc % 4 = 0 → traceFind tr p'.key proto data = .ok tf ∧ ∃ v t0 u, traceMatch tr tf p'.key proto data v = .ok t0 ∧ t = t0 ++ u) := by
    intro h
    split at h
    · rename_i hl
      rw [if_pos hl]
      cases h
      exact ⟨rfl, fun _ _ => rfl, fun h => absurd rfl h, p, rfl, .inl rfl, fun h => by omega⟩
    · rename_i hl
      rw [if_neg hl]
      obtain ⟨k1, k2, k3, k4, k5⟩ := lookup_facts h
      exact ⟨k1, k4, k5, p, rfl, .inr k2, fun _ => ⟨k2, k3⟩⟩
  split at h
  · rename_i h4
    rw [if_pos h4]
    obtain ⟨o, e2, h⟩ := bind_ok h
    rw [e2, Res.ok_bind]
    cases o with
    | some fw =>
      cases h
      refine ⟨rfl, ?_, fun h => absurd rfl h, p, rfl, .inl rfl, fun h => by omega⟩
      intro hq _
      exact Tr.line_off hq.2.1 _
    | none => exact hend h
  · rename_i h4
    rw [if_neg h4]
    exact hend h

theorem withTarget_ok {b : Bool} {st : St} {lb : Nat} {before : String} {after t : List Char} (h : withTarget b st lb before after = .ok t) :
    (b = false ∧ t = []) ∨ (b = true ∧ ∃ x, t = before.toList ++ x ++ after) := by
  unfold withTarget at h
  cases b with
  | false => rw [if_neg (by decide)] at h; cases h; exact .inl ⟨rfl, rfl⟩
  | true =>
    rw [if_pos rfl] at h
    obtain ⟨x, _, h⟩ := bind_ok h
    cases h
    exact .inr ⟨rfl, x, rfl⟩

theorem end_facts {tr : Tr} {conf : Conf} {env : Env} {st st' : St} {lb : Nat} {p : Parsed} {tf len : Nat} {a : LbAction} {t : List Char} (h : pktEnd tr conf env st lb p tf len = .ok (st', a, t)) :
    FlowLb.pktEnd conf env st lb p = .ok (st', a) ∧ (Quiet tr → tf = 0 → t = []) ∧ (tf ≠ 0 → ∀ fw, markOf a = some fw → Tells t fw) := by
  unfold pktEnd at h
  unfold FlowLb.pktEnd
  cases hl : st.heap lb with
  | none => rw [hl] at h; cases h
  | some l =>
    rw [hl] at h
    dsimp only at h ⊢
    obtain ⟨fw, e1, h⟩ := bind_ok h
    rw [e1, Res.ok_bind]
    obtain ⟨st1, e2, h⟩ := bind_ok h
    rw [e2, Res.ok_bind]
    split at h
    · rename_i hfw
      rw [if_pos hfw]
      obtain ⟨t1, e3, h⟩ := bind_ok h
      cases h
      refine ⟨rfl, ?_, ?_⟩
      · intro _ h0
        rcases withTarget_ok e3 with ⟨_, h⟩ | ⟨h, _⟩
        · exact h
        · simp [h0] at h
      · intro h0 fw' hm
        cases hm
        rcases withTarget_ok e3 with ⟨h, _⟩ | ⟨_, x, rfl⟩
        · simp [h0] at h
        · rw [show (", fwmark=".toList ++ decInt conf.notargets ++ ['\n']) = ", ".toList ++ ("fwmark=".toList ++ (decInt conf.notargets ++ ['\n'])) by rw [List.append_assoc, comma_fwmark]]
          exact Tells.pre (tells_mk _ _ []) _
    · rename_i hfw
      rw [if_neg hfw]
      obtain ⟨t1, e3, h⟩ := bind_ok h
      obtain ⟨t2, e4, h⟩ := bind_ok h
      have hq : Quiet tr → tf = 0 → t1 ++ (if p.rc % 2 = 1 then tr.line 2 "First fragment\n".toList else []) ++ t2 = [] := by
        intro hq h0
        have h1 : t1 = [] := by
          rcases withTarget_ok e3 with ⟨_, h⟩ | ⟨h, _⟩
          · exact h
          · simp [h0] at h
        have h2 : t2 = [] := by
          rcases withTarget_ok e4 with ⟨_, h⟩ | ⟨h, _⟩
          · exact h
          · rw [hq.1, hq.2.2] at h; simp at h
        rw [h1, h2, Tr.line_off hq.2.1]
        split <;> rfl
      have ht : tf ≠ 0 → Tells (t1 ++ (if p.rc % 2 = 1 then tr.line 2 "First fragment\n".toList else []) ++ t2) fw := by
        intro h0
        refine Tells.post (Tells.post ?_ _) _
        rcases withTarget_ok e3 with ⟨h, _⟩ | ⟨_, x, rfl⟩
        · simp [h0] at h
        · rw [show (", fwmark=".toList ++ decInt fw ++ ['\n']) = ", ".toList ++ ("fwmark=".toList ++ (decInt fw ++ ['\n'])) by rw [List.append_assoc, comma_fwmark]]
          exact Tells.pre (tells_mk _ _ []) _
      split at h
      · rename_i hr
        rw [if_pos hr]
        obtain ⟨k, e5, h⟩ := bind_ok h
        rw [e5, Res.ok_bind]
        cases h
        refine ⟨rfl, ?_, ?_⟩
        · intro a b; have := hq a b; rw [if_pos hr] at this; exact this
        · intro h0 fw' hm
          cases hm
          have := ht h0; rw [if_pos hr] at this; exact this
      · rename_i hr
        rw [if_neg hr]
        cases h
        refine ⟨rfl, ?_, ?_⟩
        · intro a b; have := hq a b; rw [if_neg hr] at this; exact this
        · intro h0 fw' hm
          cases hm
          have := ht h0; rw [if_neg hr] at this; exact this

theorem handle_facts {tr : Tr} {conf : Conf} {env : Env} {st st' : St} {proto : Nat} {data : Packet} {a : LbAction} {t : List Char} (h : pktHandle tr conf env st proto data = .ok (st', a, t)) :
    FlowLb.pktHandle conf env st proto data = .ok (st', a) ∧ ∃ p, getHashKey 0 proto data = .ok p ∧
      (Quiet tr → (∀ n, traceFind tr p.key proto data = .ok n → n = 0) → t = []) ∧
      (∀ n, n ≠ 0 → 0 ≤ p.rc → p.rc % 4 = 0 → traceFind tr p.key proto data = .ok n →
        (∃ v t0 u, traceMatch tr n p.key proto data v = .ok t0 ∧ t = t0 ++ u) ∧
        ∀ fw, markOf a = some fw → Tells t fw ∨ (fw = -1 ∧ ∃ v q, getHashKey v proto data = .ok q ∧ q.rc < 0)) := by
  unfold pktHandle at h
  obtain ⟨⟨st1, r, tf, t1⟩, e1, h⟩ := bind_ok h
  dsimp only at h
  obtain ⟨k1, k2, k3, p, k4, k5, k6⟩ := begin_facts e1
  unfold FlowLb.pktHandle
  rw [k1, Res.ok_bind]
  dsimp only
  have hz : (∀ n, traceFind tr p.key proto data = .ok n → n = 0) → tf = 0 := by
    intro hn
    rcases k5 with h | h
    · exact h
    · exact hn _ h
  cases r with
  | done a1 =>
    cases h
    refine ⟨rfl, p, k4, fun hq hn => k2 hq (hz hn), ?_⟩
    intro n h0 hr1 hr2 hf
    obtain ⟨e2, e3⟩ := k6 ⟨hr1, hr2⟩
    rw [hf] at e2
    cases e2
    exact ⟨e3, fun fw hm => k3 h0 _ fw rfl hm⟩
  | has lb q =>
    dsimp only at h ⊢
    obtain ⟨⟨st2, a2, t2⟩, e4, h⟩ := bind_ok h
    cases h
    obtain ⟨j1, j2, j3⟩ := end_facts e4
    refine ⟨j1, p, k4, ?_, ?_⟩
    · intro hq hn
      rw [k2 hq (hz hn), j2 hq (hz hn)]; rfl
    · intro n h0 hr1 hr2 hf
      obtain ⟨e2, v, t0, u, e3, e5⟩ := k6 ⟨hr1, hr2⟩
      rw [hf] at e2
      cases e2
      refine ⟨⟨v, t0, u ++ t2, e3, by rw [e5, List.append_assoc]⟩, fun fw hm => .inl (Tells.pre (j3 h0 fw hm) _)⟩

/-! ### Nothing undefined -/

theorem walk_skips (d : Packet) : ∀ (f : Nat) (t : UInt8) (pos : Nat) (t' : UInt8) (pos' : Nat), walkExt false d f t pos = .ok (some (t', pos')) → Skips d t pos t' pos'
  | 0, t, pos, t', pos', h => by cases h
  | f + 1, t, pos, t', pos', h => by
    unfold walkExt at h
    split at h
    · rename_i h1
      cases h
      apply Skips.upper
      rw [← isExt_iff]; simpa using h1
    rename_i h1
    have hext : IsExt t := by rw [← isExt_iff]; simpa using h1
    simp only [Bool.false_and, Bool.false_eq_true, if_false] at h
    split at h
    · cases h
    rename_i h2
    obtain ⟨nxt, e1, h⟩ := bind_ok h
    obtain ⟨l, e2, h⟩ := bind_ok h
    split at h
    · cases h
    rename_i h3
    exact .step hext (inBounds_iff.1 (by simpa using h2)) (rd_some e1) (rd_some e2) h3 (walk_skips d f _ _ _ _ h)

theorem printIcmp4_total {d : Packet} (h : ∀ b0, d[0]? = some b0 → d[9]? = some 1 → 4 * (b0.toNat % 16) + 8 ≤ d.length) : ∃ t, printIcmp4 d = .ok t := by
  unfold printIcmp4
  split
  · exact ⟨_, rfl⟩
  rename_i hb
  have hb' : 0 + 20 < d.length := by simpa [inBounds_iff] using hb
  obtain ⟨b0, h0⟩ := rd_ok (d := d) (i := 0) (by omega)
  obtain ⟨p, h9⟩ := rd_ok (d := d) (i := 9) (by omega)
  rw [h0, Res.ok_bind]
  split
  · exact ⟨_, rfl⟩
  rw [h9, Res.ok_bind]
  split
  · exact ⟨_, rfl⟩
  rename_i hp
  have hp' : p = 1 := by simpa using hp
  subst hp'
  have hl := h b0 (rd_some h0) (rd_some h9)
  obtain ⟨t, ht⟩ := rd_ok (d := d) (i := 4 * (b0.toNat % 16)) (by omega)
  obtain ⟨c, hc⟩ := rd_ok (d := d) (i := 4 * (b0.toNat % 16) + 1) (by omega)
  obtain ⟨i, hi⟩ := rd16_ok (d := d) (i := 4 * (b0.toNat % 16) + 4) (by omega)
  obtain ⟨q, hq⟩ := rd16_ok (d := d) (i := 4 * (b0.toNat % 16) + 6) (by omega)
  dsimp only
  rw [ht, hc, hi, hq]
  simp only [Res.ok_bind, Res.pure_eq]
  split
  · split <;> exact ⟨_, rfl⟩
  · split <;> exact ⟨_, rfl⟩

theorem printIcmp6_total {d : Packet} (h : ∀ nxt pos, d[6]? = some nxt → Skips d nxt 40 58 pos → pos + 8 ≤ d.length) : ∃ t, printIcmp6 d = .ok t := by
  unfold printIcmp6
  split
  · exact ⟨_, rfl⟩
  rename_i hb
  have hb' : 0 + 40 < d.length := by simpa [inBounds_iff] using hb
  obtain ⟨nxt, h6⟩ := rd_ok (d := d) (i := 6) (by omega)
  rw [h6, Res.ok_bind]
  obtain ⟨w, hw⟩ := walkExt_turns_ok false d nxt 40
  rw [hw, Res.ok_bind]
  cases w with
  | none => exact ⟨_, rfl⟩
  | some w =>
    obtain ⟨ht, pos⟩ := w
    dsimp only
    split
    · exact ⟨_, rfl⟩
    rename_i hp
    have hp' : ht = 58 := by simpa using hp
    subst hp'
    have hl := h nxt pos (rd_some h6) (walk_skips d _ _ _ _ _ hw)
    obtain ⟨t, ht⟩ := rd_ok (d := d) (i := pos) (by omega)
    obtain ⟨c, hc⟩ := rd_ok (d := d) (i := pos + 1) (by omega)
    obtain ⟨i, hi⟩ := rd16_ok (d := d) (i := pos + 4) (by omega)
    obtain ⟨q, hq⟩ := rd16_ok (d := d) (i := pos + 6) (by omega)
    rw [ht, hc, hi, hq]
    simp only [Res.ok_bind, Res.pure_eq]
    split
    · exact ⟨_, rfl⟩
    · split <;> exact ⟨_, rfl⟩

theorem printIcmp_total {proto : Nat} {d : Packet} (h : IcmpWhole proto d) : ∃ t, printIcmp proto d = .ok t := by
  unfold printIcmp
  split
  · rename_i e; exact printIcmp4_total (h.1 e)
  split
  · rename_i e; exact printIcmp6_total (h.2 e)
  · exact ⟨_, rfl⟩

/-- The trace flow is found, and its name is there. -/
theorem trace_total {s : Server.Sys} (hi : SInv s) (hn : NoWrap s.srv.trace) (mask : Nat) {proto : Nat} {d : Packet} (hw : IcmpWhole proto d) (key : Key) :
    ∃ tf, traceFind (trOf s.srv mask) key proto d = .ok tf ∧ ∀ v, ∃ t, traceMatch (trOf s.srv mask) tf key proto d v = .ok t := by
  have h0 : ∀ v, ∃ t, traceMatch (trOf s.srv mask) 0 key proto d v = .ok t := by
    intro v
    unfold traceMatch
    rw [if_pos rfl]
    exact ⟨_, rfl⟩
  unfold traceFind
  split
  · obtain ⟨tf, u, e⟩ := flowLookup_total hi.tset (fun f hf => (hi.tdraw f hf).1) hn key proto d 0
    have e' : Flow.flowLookup (trOf s.srv mask).set key proto d 0 = .ok (tf, u) := e
    rw [e', Res.ok_bind]
    refine ⟨tf, rfl, ?_⟩
    rcases Flow.lookup_spec _ hi.tset.sorted e with ⟨h1, _⟩ | ⟨h1, f, hf, h2, _⟩
    · rw [h1]; exact h0
    · intro v
      obtain ⟨_, h3⟩ := hi.tname f hf
      rw [h2] at h3
      have h3' : (trOf s.srv mask).names tf = some f.name := h3
      obtain ⟨x, hx⟩ := printIcmp_total hw
      unfold traceMatch
      rw [if_neg h1, h3']
      dsimp only
      rw [hx, Res.ok_bind]
      exact ⟨_, rfl⟩
  · exact ⟨0, rfl, h0⟩

theorem lookup_traced {tr : Tr} {conf : Conf} {st st' : St} {proto : Nat} {data : Packet} {p : Parsed} {r : Pkt} (h : FlowLb.pktLookup conf st proto data p = .ok (st', r))
    (ht : ∃ tf, traceFind tr p.key proto data = .ok tf ∧ ∀ v, ∃ t, traceMatch tr tf p.key proto data v = .ok t) : ∃ tf t, pktLookup tr conf st proto data p = .ok (st', r, tf, t) := by
  obtain ⟨tf, e2, e3⟩ := ht
  unfold FlowLb.pktLookup at h
  obtain ⟨⟨st1, lb1, v1⟩, e1, h⟩ := bind_ok h
  obtain ⟨t0, e3⟩ := e3 v1
  dsimp only at h
  unfold pktLookup
  rw [e1, Res.ok_bind]
  dsimp only
  rw [e2, Res.ok_bind, e3, Res.ok_bind]
  split at h
  · rename_i hc
    rw [if_pos hc]
    obtain ⟨p2, e4, h⟩ := bind_ok h
    rw [e4, Res.ok_bind]
    split at h
    · rename_i hrc
      rw [if_pos hrc]
      cases h
      exact ⟨_, _, rfl⟩
    · rename_i hrc
      rw [if_neg hrc]
      obtain ⟨⟨st2, lb2, v2⟩, e5, h⟩ := bind_ok h
      rw [e5, Res.ok_bind]
      dsimp only at h ⊢
      split at h
      · rename_i hl
        rw [if_pos hl]
        cases h
        exact ⟨_, _, rfl⟩
      · rename_i hl
        rw [if_neg hl]
        cases h
        exact ⟨_, _, rfl⟩
  · rename_i hc
    rw [if_neg hc]
    split at h
    · rename_i hl
      rw [if_pos hl]
      cases h
      exact ⟨_, _, rfl⟩
    · rename_i hl
      rw [if_neg hl]
      cases h
      exact ⟨_, _, rfl⟩

theorem begin_traced {tr : Tr} {conf : Conf} {st st' : St} {proto : Nat} {data : Packet} {r : Pkt} (h : FlowLb.pktBegin conf st proto data = .ok (st', r))
    (ht : ∀ key, ∃ tf, traceFind tr key proto data = .ok tf ∧ ∀ v, ∃ t, traceMatch tr tf key proto data v = .ok t) : ∃ tf t, pktBegin tr conf st proto data = .ok (st', r, tf, t) := by
  unfold FlowLb.pktBegin at h
  obtain ⟨p, e1, h⟩ := bind_ok h
  unfold pktBegin
  rw [e1, Res.ok_bind]
  split at h
  · rename_i hrc
    rw [if_pos hrc]
    cases h
    exact ⟨_, _, rfl⟩
  rename_i hrc
  rw [if_neg hrc]
  dsimp only at h ⊢
  have hend : (if p.rc % 4 ≠ 0 ∧ p.rc % 2 = 0 then Res.ok (st, Pkt.done (.later p.key)) else FlowLb.pktLookup conf st proto data p) = .ok (st', r) →
      ∃ tf t, (if p.rc % 4 ≠ 0 ∧ p.rc % 2 = 0 then Res.ok (st, Pkt.done (.later p.key), 0, []) else pktLookup tr conf st proto data p) = .ok (st', r, tf, t) := by
    intro h
    split at h
    · rename_i hl
      rw [if_pos hl]
      cases h
      exact ⟨_, _, rfl⟩
    · rename_i hl
      rw [if_neg hl]
      exact lookup_traced h (ht p.key)
  split at h
  · rename_i h4
    rw [if_pos h4]
    obtain ⟨o, e2, h⟩ := bind_ok h
    rw [e2, Res.ok_bind]
    cases o with
    | some fw => cases h; exact ⟨_, _, rfl⟩
    | none => exact hend h
  · rename_i h4
    rw [if_neg h4]
    exact hend h

theorem withTarget_total {st : St} {lb : Nat} (h : st.heap lb ≠ none) (b : Bool) (before : String) (after : List Char) : ∃ t, withTarget b st lb before after = .ok t := by
  unfold withTarget targetOf
  split
  · cases hl : st.heap lb with
    | none => exact absurd hl h
    | some l => exact ⟨_, rfl⟩
  · exact ⟨_, rfl⟩

theorem end_traced {tr : Tr} {conf : Conf} {env : Env} {st st' : St} {lb : Nat} {p : Parsed} {a : LbAction} (h : FlowLb.pktEnd conf env st lb p = .ok (st', a)) (hl : st'.heap lb ≠ none) (tf len : Nat) :
    ∃ t, pktEnd tr conf env st lb p tf len = .ok (st', a, t) := by
  unfold FlowLb.pktEnd at h
  unfold pktEnd
  cases hh : st.heap lb with
  | none => rw [hh] at h; cases h
  | some l =>
    rw [hh] at h
    dsimp only at h ⊢
    obtain ⟨fw, e1, h⟩ := bind_ok h
    rw [e1, Res.ok_bind]
    obtain ⟨st1, e2, h⟩ := bind_ok h
    rw [e2, Res.ok_bind]
    split at h
    · rename_i hfw
      rw [if_pos hfw]
      cases h
      obtain ⟨t, e3⟩ := withTarget_total hl (decide (tf ≠ 0)) "NO servers, target=" (", fwmark=".toList ++ decInt conf.notargets ++ ['\n'])
      rw [e3, Res.ok_bind]
      exact ⟨_, rfl⟩
    · rename_i hfw
      rw [if_neg hfw]
      have hst : st1 = st' := by
        split at h
        · obtain ⟨k, _, h⟩ := bind_ok h
          cases h; rfl
        · cases h; rfl
      subst hst
      obtain ⟨t, e3⟩ := withTarget_total hl (decide (tf ≠ 0)) "target=" (", fwmark=".toList ++ decInt fw ++ ['\n'])
      obtain ⟨u, e4⟩ := withTarget_total hl (tr.on 1 || (tr.on 4 && decide (Flow.protoNum p.key = 132))) "Using LB; "
        ("\nPacket; proto=".toList ++ CText.dec (Flow.protoNum p.key) ++ ", len=".toList ++ CText.dec len ++ ", fwmark=".toList ++ decInt fw ++ ['\n'])
      rw [e3, Res.ok_bind]
      rw [e4, Res.ok_bind]
      split at h
      · rename_i hr
        rw [if_pos hr]
        obtain ⟨k, e5, h⟩ := bind_ok h
        rw [e5, Res.ok_bind]
        cases h
        exact ⟨_, rfl⟩
      · rename_i hr
        rw [if_neg hr]
        cases h
        exact ⟨_, rfl⟩

/-- A load-balancer that a packet has got is the one of a flow. -/
theorem begin_flow {s : FlowLb.Sys} (hi : FlowLb.Inv s) {conf : Conf} {proto : Nat} {data : Packet} {st : St} {lb : Nat} {q : Parsed} (h : FlowLb.pktBegin conf s.st proto data = .ok (st, .has lb q)) :
    ∃ f ∈ s.st.fset.flows, f.userRef = lb := by
  unfold FlowLb.pktBegin at h
  obtain ⟨p, e1, h⟩ := bind_ok h
  split at h
  · cases h
  have hend : (if p.rc % 4 ≠ 0 ∧ p.rc % 2 = 0 then Res.ok (s.st, Pkt.done (.later p.key)) else FlowLb.pktLookup conf s.st proto data p) = .ok (st, .has lb q) → ∃ f ∈ s.st.fset.flows, f.userRef = lb := by
    intro h
    split at h
    · cases h
    · obtain ⟨_, _, q, _, h3⟩ := FlowLb.pktLookup_cases h
      rcases h3 with ⟨_, h3⟩ | ⟨lb2, v, h4, ⟨_, h3⟩ | ⟨h5, h3⟩⟩
      · cases h3
      · cases h3
      · cases h3
        rcases Flow.lookup_spec _ hi.flowset.sorted h4 with ⟨h1, _⟩ | ⟨_, f, hf, h2, _⟩
        · exact absurd h1 h5
        · exact ⟨f, hf, h2⟩
  dsimp only at h
  split at h
  · obtain ⟨o, _, h⟩ := bind_ok h
    cases o with
    | some fw => cases h
    | none => exact hend h
  · exact hend h

theorem end_state {conf : Conf} {env : Env} {st st' : St} {lb : Nat} {p : Parsed} {a : LbAction} (h : FlowLb.pktEnd conf env st lb p = .ok (st', a)) : release st lb = .ok st' := by
  unfold FlowLb.pktEnd at h
  cases hh : st.heap lb with
  | none => rw [hh] at h; cases h
  | some l =>
    rw [hh] at h
    dsimp only at h
    obtain ⟨fw, e1, h⟩ := bind_ok h
    obtain ⟨st1, e2, h⟩ := bind_ok h
    rw [e2]
    split at h
    · cases h; rfl
    split at h
    · obtain ⟨k, _, h⟩ := bind_ok h
      cases h; rfl
    · cases h; rfl

/-- The handler with tracing does what it does without. -/
theorem handle_traced {s : Server.Sys} (hi : SInv s) (hn : NoWrap s.srv.trace) (mask : Nat) {conf : Conf} {env : Env} {proto : Nat} {data : Packet} (hw : IcmpWhole proto data) (h0 : ¬ UdpPort0 proto data)
    {st' : St} {a : LbAction} (h : FlowLb.pktHandle conf env s.srv.st proto data = .ok (st', a)) : ∃ t, pktHandle (trOf s.srv mask) conf env s.srv.st proto data = .ok (st', a, t) := by
  unfold FlowLb.pktHandle at h
  obtain ⟨⟨st1, r⟩, e1, h⟩ := bind_ok h
  dsimp only at h
  obtain ⟨tf, t1, e2⟩ := begin_traced e1 (fun key => trace_total hi hn mask hw key)
  unfold pktHandle
  rw [e2, Res.ok_bind]
  dsimp only
  cases r with
  | done a1 => cases h; exact ⟨_, rfl⟩
  | has lb q =>
    dsimp only at h ⊢
    obtain ⟨hfs, hb⟩ := FlowLb.pktBegin_inv hi.inv h0 e1
    rcases hb with ⟨_, hb, _⟩ | ⟨lb2, q2, hb, hb2⟩
    · cases hb
    cases hb
    have hl : st'.heap lb ≠ none := by
      obtain ⟨f, hf, hr⟩ := begin_flow hi.inv e1
      obtain ⟨l, st2, _, j2, j3, j4⟩ := FlowLb.pktEnd_inv hb2 (i := 0) (lb := lb) (p := q) rfl
      have j5 : release st1 lb = .ok st' := end_state h
      rw [j5] at j2
      cases j2
      have hf2 : f ∈ (FlowLb.Sys.mk st' ((lb, q) :: s.held |>.eraseIdx 0)).st.fset.flows := by
        show f ∈ st'.fset.flows
        rw [j3]
        show f ∈ st1.fset.flows
        rw [hfs]
        exact hf
      have := flow_refs hf2
      rw [hr] at this
      intro hc
      have h00 : lb ≠ 0 := hb2.held (lb, q) (List.mem_cons_self)
      have h5 := j4.bal.dead lb h00 hc
      rw [h5] at this
      exact absurd this (Nat.lt_irrefl _)
    obtain ⟨t, e3⟩ := end_traced (tr := trOf s.srv mask) h hl tf data.length
    rw [e3, Res.ok_bind]
    exact ⟨_, rfl⟩

/-! ### The selection -/

theorem tokens_inter (names : List (List Char)) (h : ∀ n ∈ names, n ≠ [] ∧ ',' ∉ n) : CText.tokens [','] (List.intercalate [','] names) = names := by
  have run : ∀ (x cur s : List Char), ',' ∉ x → CText.tokensAux [','] cur (x ++ s) = CText.tokensAux [','] (x.reverse ++ cur) s := by
    intro x
    induction x with
    | nil => intro cur s _; rfl
    | cons c x ih =>
      intro cur s hc
      have h1 : c ∉ [','] := by
        intro h; simp only [List.mem_singleton] at h; exact hc (by simp [h])
      rw [List.cons_append, CText.tokensAux, if_neg h1, ih _ _ (fun hd => hc (by simp [hd]))]
      simp
  unfold CText.tokens
  induction names with
  | nil => rfl
  | cons n r ih =>
    have hn := h n (by simp)
    have hr := ih (fun x hx => h x (by simp [hx]))
    have hne : n.reverse ≠ [] := by simpa using hn.1
    cases r with
    | nil =>
      have e : List.intercalate [','] [n] = n ++ [] := by simp
      rw [e, run _ _ _ hn.2, List.append_nil]
      simp only [CText.tokensAux, if_neg hne, List.reverse_reverse]
    | cons m r =>
      have e : List.intercalate [','] (n :: m :: r) = n ++ (',' :: List.intercalate [','] (m :: r)) := by simp [List.intercalate, List.intersperse]
      rw [e, run _ _ _ hn.2, List.append_nil, CText.tokensAux, if_pos (by simp), if_neg hne, List.reverse_reverse, hr]

theorem foldl_or (f : List Char → Nat) (b : Nat) : ∀ (l : List (List Char)) (m : Nat), (l.foldl (fun m t => m ||| f t) m).testBit b = true ↔ m.testBit b = true ∨ ∃ t ∈ l, (f t).testBit b = true
  | [], m => by simp
  | t :: l, m => by
    rw [List.foldl_cons, foldl_or f b l, Nat.testBit_or]
    simp [or_assoc]

theorem str2mask_bit (n : List Char) (b : Nat) : (str2mask n).testBit b = true ↔ Spec.Trc.eventNames[b]? = some n := by
  have key : ∀ k, k < 7 → ∀ n, Spec.Trc.eventNames[k]? = some n → str2mask n = 2 ^ k ∧ ∀ b, Spec.Trc.eventNames[b]? = some n → b = k := by
    intro k hk n hn
    have hl : k < Spec.Trc.eventNames.length := hk
    rw [List.getElem?_eq_getElem hl] at hn
    cases hn
    refine ⟨?_, ?_⟩
    · revert k; decide +kernel
    · intro b hb
      have hb7 : b < 7 := by
        by_cases h : b < Spec.Trc.eventNames.length
        · exact h
        · rw [List.getElem?_eq_none (Nat.le_of_not_lt h)] at hb; cases hb
      have hl2 : b < Spec.Trc.eventNames.length := hb7
      rw [List.getElem?_eq_getElem hl2] at hb
      injection hb with hb
      revert hb
      revert b
      revert k
      decide +kernel
  by_cases hm : ∃ k : Nat, Spec.Trc.eventNames[k]? = some n
  · obtain ⟨k, hk⟩ := hm
    have hk7 : k < 7 := by
      by_cases h : k < Spec.Trc.eventNames.length
      · exact h
      · rw [List.getElem?_eq_none (Nat.le_of_not_lt h)] at hk; cases hk
    obtain ⟨e, u⟩ := key k hk7 n hk
    rw [e, Nat.testBit_two_pow]
    constructor
    · intro h
      rw [← of_decide_eq_true h]; exact hk
    · intro h
      exact decide_eq_true (u b h).symm
  · have hz : str2mask n = 0 := by
      unfold str2mask
      cases hf : traceEvents.find? (fun e => decide (n = e.1)) with
      | none => rfl
      | some e =>
        refine absurd ?_ hm
        have h1 := List.find?_some hf
        have h2 := List.mem_of_find?_eq_some hf
        have h1 : n = e.1 := of_decide_eq_true h1
        have h3 : traceEvents.map Prod.fst = Spec.Trc.eventNames := rfl
        have h4 : n ∈ Spec.Trc.eventNames := by rw [← h3, h1]; exact List.mem_map_of_mem h2
        exact List.mem_iff_getElem?.1 h4
    rw [hz, Nat.zero_testBit]
    constructor
    · intro h; cases h
    · intro h; exact absurd ⟨b, h⟩ hm

theorem selection_spec (names : List (List Char)) (h : ∀ n ∈ names, n ≠ [] ∧ ',' ∉ n) (b : Nat) :
    (selectionMask (List.intercalate [','] names)).testBit b = true ↔ ∃ n, Spec.Trc.eventNames[b]? = some n ∧ n ∈ names := by
  unfold selectionMask
  rw [tokens_inter names h, foldl_or]
  simp only [Nat.zero_testBit, Bool.false_eq_true, false_or]
  constructor
  · rintro ⟨t, h1, h2⟩; exact ⟨t, (str2mask_bit t b).1 h2, h1⟩
  · rintro ⟨t, h1, h2⟩; exact ⟨t, h2, (str2mask_bit t b).2 h1⟩

end Nfqlb.Trace
