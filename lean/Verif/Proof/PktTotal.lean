import Verif.Proof.ServerInv
import Verif.Proof.PacketExact
import Verif.Proof.FlowLbPkt
import Verif.Proof.MatchEval
import Verif.Spec.PktSafe

/-! The packet handler returns. -/

set_option autoImplicit false

namespace Nfqlb.Match

open Nfqlb.Spec.BM

theorem accepted_total {ss : List (List Char)} {m : Match} (h : matchAddAll [] ss = .ok (some m)) (h32 : ∀ i ∈ m, i.offset + i.nbytes < 4294967296) (proto l4 : Nat) (d : Packet) :
    ∃ b, matchMatches (some m) proto l4 d = .ok b := by
  obtain ⟨es, _, hm, he⟩ := addAll_items ss [] m h
  refine matches_ok m proto l4 d ?_
  intro i hi
  have hlt := h32 i hi
  rw [hm, List.nil_append, List.mem_map] at hi
  obtain ⟨e, hee, rfl⟩ := hi
  obtain ⟨h1, _, h3⟩ := he e hee
  have hn := ((wf_iff e).1 h1).2.1
  refine ⟨hn, ?_⟩
  have hlt' : cnum e.offset + e.nbytes < 4294967296 := hlt
  rw [u32_small hlt'] at h3
  show cnum e.offset + e.nbytes ≤ headerlength e.proto.num.toNat
  rw [headerlength_num]; exact h3

end Nfqlb.Match

namespace Nfqlb.Server

open Nfqlb Nfqlb.Spec Nfqlb.Spec.Srv Nfqlb.Spec.FLB Nfqlb.Spec.Pkt Nfqlb.Spec.RS Nfqlb.Spec.FL Nfqlb.Maglev
open Nfqlb.Flow (Draw SetOK FlowOK flowMatch flowLookup lookupLoop portPasses portPasses_ok matchPasses protoNum)
open Nfqlb.FlowLb (St Conf Env Pkt LB pktLookup pktBegin pktEnd pktHandle isEncap lookup)

/-! ### The lookup -/

theorem matchPasses_total {f : Flow.Flow} (hd : Draw f) (hn : ∀ m, f.mtch = some m → ∀ i ∈ m, i.offset + i.nbytes < 4294967296) (l3 : Nat) (key : Key) (data : Packet) : ∃ b, matchPasses f.mtch l3 key data = .ok b := by
  cases hm : f.mtch with
  | none => exact ⟨_, rfl⟩
  | some m =>
    unfold matchPasses
    dsimp only
    split
    · exact ⟨_, rfl⟩
    · obtain ⟨l, hl⟩ := hd.mtch m hm
      exact Match.accepted_total hl (hn m hm) ..

theorem flowMatch_total {f : Flow.Flow} (ho : FlowOK f) (hd : Draw f) (hn : ∀ m, f.mtch = some m → ∀ i ∈ m, i.offset + i.nbytes < 4294967296) (key : Key) (ping : Bool) (l3 : Nat) (data : Packet) :
    ∃ v, flowMatch key f ping l3 data = .ok v := by
  unfold flowMatch
  split
  · exact ⟨_, rfl⟩
  split
  · exact ⟨_, rfl⟩
  split
  · exact ⟨_, rfl⟩
  split
  · exact ⟨_, rfl⟩
  obtain ⟨a, ha⟩ := portPasses_ok ho.1 key.dport
  obtain ⟨b, hb⟩ := portPasses_ok ho.2 key.sport
  obtain ⟨c, hc⟩ := matchPasses_total hd hn l3 key data
  rw [ha, hb, hc]
  cases a <;> cases b <;> cases c <;> exact ⟨_, rfl⟩

theorem lookupLoop_total (key : Key) (ping : Bool) (l3 : Nat) (data : Packet) : ∀ (l : List Flow.Flow) (u : Nat), (∀ f ∈ l, FlowOK f ∧ Draw f ∧ ∀ m, f.mtch = some m → ∀ i ∈ m, i.offset + i.nbytes < 4294967296) →
    ∃ r, lookupLoop key ping l3 data l u = .ok r
  | [], _, _ => ⟨_, rfl⟩
  | f :: l, u, h => by
    obtain ⟨h1, h2, h3⟩ := h f (by simp)
    obtain ⟨v, hv⟩ := flowMatch_total h1 h2 h3 key ping l3 data
    unfold lookupLoop
    rw [hv, Res.ok_bind]
    dsimp only
    split
    · exact ⟨_, rfl⟩
    · exact lookupLoop_total key ping l3 data l _ (fun g hg => h g (by simp [hg]))

theorem flowLookup_total {set : Flow.FlowSet} (hs : SetOK set) (hd : ∀ f ∈ set.flows, Draw f) (hn : NoWrap set) (key : Key) (l3 : Nat) (data : Packet) (u : Nat) : ∃ t v, flowLookup set key l3 data u = .ok (t, v) := by
  obtain ⟨⟨t, v⟩, h⟩ := lookupLoop_total key set.ping l3 data set.flows u (fun f hf => ⟨hs.ok f hf, hd f hf, hn f hf⟩)
  exact ⟨t, v, h⟩

/-! ### The parser -/

theorem whole_ok {proto : Nat} {d : Packet} (h : Whole proto d) (ue : Nat) : ∃ p, getHashKey ue proto d = .ok p := by
  unfold getHashKey
  split
  · rename_i e
    rcases v4_exact ue d with ⟨h1, _⟩ | ⟨_, h1⟩
    · exact absurd h1 (h.1 e)
    · exact h1
  split
  · rename_i e
    rcases v6_exact ue d with ⟨h1, _⟩ | ⟨_, h1, _⟩ | ⟨_, _, h1⟩
    · exact absurd h1 (h.2 e).1
    · exact absurd h1 (h.2 e).2
    · exact h1
  · exact ⟨_, rfl⟩

/-- A condition that is simple to test. -/
theorem whole_of {proto : Nat} {d : Packet} (h : (proto = 0x0800 → ∀ b0, d[0]? = some b0 → d[9]? = some 1 → 4 * (b0.toNat % 16) + 6 ≤ d.length) ∧
    (proto = 0x86dd → ∀ nxt t pos, d[6]? = some nxt → ChainEnd d nxt 40 t pos →
      (t = 58 → pos + 6 ≤ d.length) ∧
      (t = 44 → pos + 8 ≤ d.length ∧
        ∀ n r o0 o1, d[pos]? = some n → d[pos + 1]? = some r → d[pos + 2]? = some o0 → d[pos + 3]? = some o1 →
          (o0.toNat * 256 + o1.toNat) / 8 = 0 → ¬ IsExt n ∧ (n = 58 → pos + r.toNat * 8 + 6 ≤ d.length)))) : Whole proto d := by
  refine ⟨fun e h1 => ?_, fun e => ?_⟩
  · obtain ⟨p, hp⟩ := ipv4_ok 0 d (h.1 e)
    rcases v4_exact 0 d with ⟨_, e1⟩ | ⟨h2, _⟩
    · rw [hp] at e1; cases e1
    · exact h2 h1
  · obtain ⟨p, hp⟩ := ipv6_ok 0 d (h.2 e)
    rcases v6_exact 0 d with ⟨_, _, e1⟩ | ⟨_, _, e1⟩ | ⟨h1, h2, _⟩
    · rw [hp] at e1; cases e1
    · rw [hp] at e1; cases e1
    · exact ⟨h1, h2⟩

/-- A fragment that is first has an identification. -/
def FragId (p : Parsed) : Prop := p.rc % 2 = 1 → p.fragid ≠ none

theorem portsPart_fragid {ue : Nat} {d : Packet} {proto : UInt8} {pos : Nat} {swap : Bool} {k : Key} {rc : Int} {f : Option (Raw16 × Raw16)} {p : Parsed}
    (h : portsPart ue d proto pos swap k rc f = .ok p) (hr : rc % 2 = 1 → f ≠ none) : p.rc < 0 ∨ FragId p := by
  rcases portsPart_rc h with rfl | ⟨h1, _, _, h2⟩
  · exact .inl (by decide)
  · refine .inr fun h3 => ?_
    rw [h1]
    exact hr (by omega)

theorem inner4_fragid {ue : Nat} {d : Packet} {ih : Nat} {p : Parsed} (h : getInnerHashKeyIpv4 ue d ih = .ok p) : p.rc < 0 ∨ FragId p := by
  unfold getInnerHashKeyIpv4 at h
  dsimp only at h
  split at h
  · cases h; exact .inl (by decide)
  obtain ⟨b0, _, h⟩ := bind_ok h
  split at h
  · cases h; exact .inl (by decide)
  obtain ⟨_, _, h⟩ := bind_ok h
  obtain ⟨_, _, h⟩ := bind_ok h
  obtain ⟨_, _, h⟩ := bind_ok h
  split at h
  · cases h; exact .inr (fun h => by simp at h)
  · exact portsPart_fragid h (fun h => by simp at h)

theorem v4_fragid {ue : Nat} {d : Packet} {p : Parsed} (h : getHashKeyIpv4 ue d = .ok p) : p.rc < 0 ∨ FragId p := by
  unfold getHashKeyIpv4 at h
  dsimp only at h
  split at h
  · cases h; exact .inl (by decide)
  obtain ⟨b0, _, h⟩ := bind_ok h
  split at h
  · cases h; exact .inl (by decide)
  obtain ⟨fo, _, h⟩ := bind_ok h
  obtain ⟨ident, _, h⟩ := bind_ok h
  obtain ⟨_, _, h⟩ := bind_ok h
  obtain ⟨_, _, h⟩ := bind_ok h
  obtain ⟨proto, _, h⟩ := bind_ok h
  generalize hfr : decide (ntohs fo % 16384 ≠ 0) = frag at h
  split at h
  · cases h; exact .inr (fun h => by simp at h)
  split at h
  · obtain ⟨t, _, h⟩ := bind_ok h
    split at h
    · split at h
      · cases h; exact .inl (by decide)
      · exact inner4_fragid h
    split at h
    · obtain ⟨id, _, h⟩ := bind_ok h
      cases h
      cases frag
      · exact .inr (fun h => by simp at h)
      · exact .inr (fun _ => by simp)
    · cases h
      cases frag
      · exact .inr (fun h => by simp at h)
      · exact .inr (fun _ => by simp)
  split at h
  · cases h
    cases frag
    · exact .inr (fun h => by simp at h)
    · exact .inr (fun _ => by simp)
  · refine portsPart_fragid h ?_
    cases frag
    · exact (fun h => by simp at h)
    · exact (fun _ => by simp)

theorem inner6_fragid {ue : Nat} {d : Packet} {ih : Nat} {p : Parsed} (h : getInnerHashKeyIpv6 ue d ih = .ok p) : p.rc < 0 ∨ FragId p := by
  unfold getInnerHashKeyIpv6 at h
  dsimp only at h
  split at h
  · cases h; exact .inl (by decide)
  obtain ⟨_, _, h⟩ := bind_ok h
  obtain ⟨r, _, h⟩ := bind_ok h
  cases r with
  | none => cases h; exact .inl (by decide)
  | some r =>
    obtain ⟨htype, hdr⟩ := r
    dsimp only at h
    obtain ⟨_, _, h⟩ := bind_ok h
    obtain ⟨_, _, h⟩ := bind_ok h
    split at h
    · cases h; exact .inr (fun h => by simp at h)
    · exact portsPart_fragid h (fun h => by simp at h)

theorem upper6_fragid {ue : Nat} {d : Packet} {sa da : List UInt8} {frag : Bool} {f : Option (Raw16 × Raw16)} {t : UInt8} {hdr : Nat} {p : Parsed}
    (h : ipv6Upper ue d sa da frag f t hdr = .ok p) (hf : frag = true → f ≠ none) : p.rc < 0 ∨ FragId p := by
  unfold ipv6Upper at h
  dsimp only at h
  have key : ∀ (rc : Int) (k : Key), rc = (if frag = true then 1 else 0) + 16 ∨ rc = (if frag = true then 1 else 0) + 32 → FragId ⟨rc, k, f⟩ := by
    intro rc k hr h1
    cases frag
    · rcases hr with rfl | rfl <;> simp at h1
    · exact hf rfl
  split at h
  · obtain ⟨t, _, h⟩ := bind_ok h
    split at h
    · split at h
      · cases h; exact .inl (by decide)
      · exact inner6_fragid h
    split at h
    · obtain ⟨id, _, h⟩ := bind_ok h
      cases h
      exact .inr (key _ _ (.inl rfl))
    · cases h
      exact .inr (key _ _ (.inl rfl))
  split at h
  · cases h
    exact .inr (key _ _ (.inr rfl))
  · refine portsPart_fragid h ?_
    cases frag
    · exact (fun h => absurd h (by decide))
    · exact (fun _ => hf rfl)

theorem v6_fragid {ue : Nat} {d : Packet} {p : Parsed} (h : getHashKeyIpv6 ue d = .ok p) : p.rc < 0 ∨ FragId p := by
  unfold getHashKeyIpv6 at h
  dsimp only at h
  split at h
  · cases h; exact .inl (by decide)
  obtain ⟨_, _, h⟩ := bind_ok h
  obtain ⟨_, _, h⟩ := bind_ok h
  obtain ⟨_, _, h⟩ := bind_ok h
  obtain ⟨r, _, h⟩ := bind_ok h
  cases r with
  | none => cases h; exact .inl (by decide)
  | some r =>
    obtain ⟨htype, hdr⟩ := r
    dsimp only at h
    split at h
    · obtain ⟨_, _, h⟩ := bind_ok h
      obtain ⟨_, _, h⟩ := bind_ok h
      obtain ⟨_, _, h⟩ := bind_ok h
      split at h
      · obtain ⟨⟨ht, hd⟩, _, h⟩ := bind_ok h
        exact upper6_fragid h (fun _ => by simp)
      · cases h; exact .inr (fun h => by simp at h)
    · exact upper6_fragid h (fun h => by cases h)

theorem key_fragid {ue proto : Nat} {d : Packet} {p : Parsed} (h : getHashKey ue proto d = .ok p) : p.rc < 0 ∨ FragId p := by
  unfold getHashKey at h
  split at h
  · exact v4_fragid h
  split at h
  · exact v6_fragid h
  · cases h; exact .inl (by decide)

/-! ### The handler -/

theorem redirect_total {tier : Option (Mag × Int)} (ht : ∀ d own, tier = some (d, own) → MagInv d) (key : Key) : ∃ o, tierRedirect tier key = .ok o := by
  cases tier with
  | none => exact ⟨_, rfl⟩
  | some x =>
    obtain ⟨d, own⟩ := x
    obtain ⟨fw, e, _⟩ := target_cases (ht d own rfl) (hashKeyAddresses key)
    have e2 : tierRedirect (some (d, own)) key = (Maglev.target d (hashKeyAddresses key) >>= fun fw => Res.ok (if 0 ≤ fw ∧ fw ≠ own then some fw else none)) := rfl
    rw [e2, e]
    exact ⟨_, rfl⟩

theorem pktLookup_total {s : FlowLb.Sys} (hi : FlowLb.Inv s) (hd : ∀ f ∈ s.st.fset.flows, Draw f) (hn : NoWrap s.st.fset) (conf : Conf) {proto : Nat} {data : Packet} (hw : Whole proto data) {p : Parsed} (hp : ¬ (p.key.proto = (17, 0) ∧ p.key.dport = (0, 0)))
    (hf : FragId p) :
    ∃ st r, pktLookup conf s.st proto data p = .ok (st, r) ∧ ∀ lb q, r = .has lb q → FragId q := by
  obtain ⟨t, v, e⟩ := flowLookup_total hi.flowset hd hn p.key proto data 0
  unfold pktLookup
  rcases FlowLb.lookup_ok hi e with ⟨h0, e1⟩ | ⟨h0, st', e1, _, _⟩
  · rw [e1]
    simp only [Res.ok_bind, Res.pure_eq]
    split
    · obtain ⟨q, hq⟩ := whole_ok hw v
      rw [hq]
      simp only [Res.ok_bind]
      split
      · exact ⟨_, _, rfl, fun _ _ h => by cases h⟩
      · rename_i hrc
        obtain ⟨t2, v2, e2⟩ := flowLookup_total hi.flowset hd hn q.key proto data 0
        rcases FlowLb.lookup_ok hi e2 with ⟨h2, e3⟩ | ⟨h2, st2, e3, _, _⟩
        · rw [e3]
          simp only [Res.ok_bind, if_true]
          exact ⟨_, _, rfl, fun _ _ h => by cases h⟩
        · rw [e3]
          simp only [Res.ok_bind, if_neg h2]
          refine ⟨_, _, rfl, fun _ _ h => ?_⟩
          cases h
          exact (key_fragid hq).resolve_left hrc
    · simp only [if_true]
      exact ⟨_, _, rfl, fun _ _ h => by cases h⟩
  · rw [e1]
    simp only [Res.ok_bind, Res.pure_eq]
    split
    · rename_i hc
      exfalso
      simp only [isEncap, decide_eq_true_eq] at hc
      have hv := FlowLb.lookup_udp hi e h0 hc.1
      rw [hv] at hc
      refine hp ⟨(Flow.protoNum_iff p.key 17).1 hc.1, ?_⟩
      have h2 := hc.2
      unfold ntohs at h2
      have ha : p.key.dport.1.toNat = 0 := by omega
      have hb : p.key.dport.2.toNat = 0 := by omega
      exact Prod.ext (UInt8.toNat_inj.1 ha) (UInt8.toNat_inj.1 hb)
    · refine ⟨_, _, rfl, fun _ _ h => ?_⟩
      cases h
      exact hf

theorem pktBegin_total {s : FlowLb.Sys} (hi : FlowLb.Inv s) (hd : ∀ f ∈ s.st.fset.flows, Draw f) (hn : NoWrap s.st.fset) {conf : Conf} (ht : ∀ d own, conf.tier = some (d, own) → MagInv d) {proto : Nat} {data : Packet} (hw : Whole proto data)
    (hp : ¬ UdpPort0 proto data) : ∃ st r, pktBegin conf s.st proto data = .ok (st, r) ∧ ∀ lb q, r = .has lb q → FragId q := by
  obtain ⟨p, h1⟩ := whole_ok hw 0
  unfold pktBegin
  rw [h1]
  simp only [Res.ok_bind, Res.pure_eq]
  by_cases hrc : p.rc < 0
  · rw [if_pos hrc]
    exact ⟨_, _, rfl, fun _ _ h => by cases h⟩
  rw [if_neg hrc]
  have hend := pktLookup_total hi hd hn conf hw (fun h => hp ⟨p, h1, h⟩) ((key_fragid h1).resolve_left hrc)
  have hend2 : ∃ st r, (if p.rc % 4 ≠ 0 ∧ p.rc % 2 = 0 then Res.ok (s.st, Pkt.done (LbAction.later p.key)) else pktLookup conf s.st proto data p) = .ok (st, r) ∧ ∀ lb q, r = .has lb q → FragId q := by
    split
    · exact ⟨_, _, rfl, fun _ _ h => by cases h⟩
    · exact hend
  by_cases h4 : p.rc % 4 ≠ 0
  · rw [if_pos h4]
    obtain ⟨o, ho⟩ := redirect_total ht p.key
    rw [ho]
    cases o with
    | some fw => exact ⟨_, _, rfl, fun _ _ h => by cases h⟩
    | none => exact hend2
  · rw [if_neg h4]
    exact hend2

theorem pktEnd_total {s : FlowLb.Sys} (hi : FlowLb.Inv s) {i lb : Nat} {p : Parsed} (hh : s.held[i]? = some (lb, p)) (hf : FragId p) (conf : Conf) {env : Env} (hm : ∀ i, MagInv (env.mag i)) :
    ∃ st a, pktEnd conf env s.st lb p = .ok (st, a) := by
  obtain ⟨l, st, h1, h2, _, _⟩ := FlowLb.pktEnd_inv hi hh
  unfold pktEnd
  rw [h1]
  dsimp only
  obtain ⟨fw, e, _⟩ := target_cases (hm l.seg) (hashKey p.key conf.hashMode)
  rw [e, Res.ok_bind, h2, Res.ok_bind]
  split
  · exact ⟨_, _, rfl⟩
  split
  · rename_i hr
    have := hf hr
    unfold withFragid
    cases hx : p.fragid with
    | none => exact absurd hx this
    | some x => exact ⟨_, _, rfl⟩
  · exact ⟨_, _, rfl⟩

theorem pktLookup_fragid {conf : Conf} {st st' : St} {proto : Nat} {data : Packet} {p : Parsed} {lb : Nat} {q : Parsed} (h : pktLookup conf st proto data p = .ok (st', .has lb q)) (hf : FragId p) : FragId q := by
  unfold pktLookup at h
  obtain ⟨⟨st1, lb1, v1⟩, _, h⟩ := bind_ok h
  dsimp only at h
  split at h
  · obtain ⟨p2, e, h⟩ := bind_ok h
    split at h
    · cases h
    rename_i hrc
    obtain ⟨⟨st2, lb2, v2⟩, _, h⟩ := bind_ok h
    dsimp only at h
    split at h
    · cases h
    · cases h
      exact (key_fragid e).resolve_left hrc
  split at h
  · cases h
  · cases h
    exact hf

theorem pktBegin_fragid {conf : Conf} {st st' : St} {proto : Nat} {data : Packet} {lb : Nat} {q : Parsed} (h : pktBegin conf st proto data = .ok (st', .has lb q)) : FragId q := by
  unfold pktBegin at h
  obtain ⟨p0, e2, h⟩ := bind_ok h
  split at h
  · cases h
  rename_i hrc
  have hend : (if p0.rc % 4 ≠ 0 ∧ p0.rc % 2 = 0 then Res.ok (st, Pkt.done (LbAction.later p0.key)) else pktLookup conf st proto data p0) = .ok (st', .has lb q) → FragId q := by
    intro h
    split at h
    · cases h
    · exact pktLookup_fragid h ((key_fragid e2).resolve_left hrc)
  dsimp only at h
  split at h
  · obtain ⟨o, _, h⟩ := bind_ok h
    cases o with
    | some fw => cases h
    | none => exact hend h
  · exact hend h

/-- The packets in progress can be finished. -/
theorem hist_held {rq : (Nat → Nat) → List Nat → List Nat} {fq : List Flow.Flow → List Flow.Flow} {conf : Conf} {s : Sys} (h : Srv.Hist rq fq conf s) : ∀ x ∈ s.held, FragId x.2 := by
  induction h with
  | start ping => intro x hx; cases hx
  | conn k _ hb he hr ih => exact ih
  | arrive proto data _ hp he ih =>
    simp only [step, packet] at he
    obtain ⟨r, e, he⟩ := bind_ok he
    cases he
    simp only [FlowLb.step] at e
    obtain ⟨⟨st, r⟩, e1, e⟩ := bind_ok e
    cases r with
    | done a => cases e; exact ih
    | has lb p =>
      cases e
      intro x hx
      rcases List.mem_cons.1 hx with rfl | hx
      · exact pktBegin_fragid e1
      · exact ih x hx
  | finish env i _ he ih =>
    simp only [step, packet] at he
    obtain ⟨r, e, he⟩ := bind_ok he
    cases he
    simp only [FlowLb.step] at e
    split at e
    · cases e; exact ih
    · obtain ⟨⟨st, a⟩, e1, e⟩ := bind_ok e
      cases e
      intro x hx
      exact ih x (List.mem_of_mem_eraseIdx hx)

end Nfqlb.Server
