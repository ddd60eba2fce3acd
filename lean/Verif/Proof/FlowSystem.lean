import Verif.Spec.FlowSystem
import Verif.Proof.System
import Verif.Proof.FlowBack
import Verif.Props.Flow
import Verif.Props.Client

set_option autoImplicit false

namespace Nfqlb.FSys

open Nfqlb Nfqlb.Maglev Nfqlb.Cmd Nfqlb.Session Nfqlb.Spec Nfqlb.Spec.Session Nfqlb.Spec.FSys Nfqlb.Spec.Nfq Nfqlb.Spec.Pkt Nfqlb.E2E Nfqlb.Spec.FL Nfqlb.Spec.RS
open Nfqlb.Spec.Sys (Tuple FlowOf Fragment SameDatagram Reads)
open Nfqlb.Sys (Small)
open Nfqlb.FlowLb (Back)
open Nfqlb.Flow (Implements lookupLoop flowLookup flowMatch)

/-! ### Names and numbers -/

theorem obj_seg : ∀ s : Str, objOf (segOf s) = s
  | [] => by unfold objOf segOf; rfl
  | c :: s => by
    have hc : c.toNat < 1114112 := by
      have := c.valid
      rcases this with h | ⟨_, h⟩
      · show c.val.toNat < _; have : c.val.toNat < 0xd800 := h; omega
      · exact h
    unfold objOf segOf
    rw [if_neg (by omega)]
    have h1 : (c.toNat + 1 + 1114113 * segOf s) % 1114113 - 1 = c.toNat := by omega
    have h2 : (c.toNat + 1 + 1114113 * segOf s) / 1114113 = segOf s := by omega
    rw [h1, h2, obj_seg s, Char.ofNat_toNat]

theorem nothing_inv : MagInv ⟨1, 0, [-1], [], []⟩ := by
  refine ⟨by decide, rfl, ?_⟩
  rfl

theorem env_mag {nm : Str → Option Str} {w : Session.Store} {S : Lbs} (h : Has w S) (i : Nat) : MagInv ((env nm w).mag i) := by
  unfold env
  dsimp only
  rcases h (objOf i) with ⟨e, _⟩ | ⟨s, lb, e, _, hs⟩
  · rw [e]; exact nothing_inv
  · rw [e]; exact hs.inv

theorem env_shm {nm : Str → Option Str} {w : Session.Store} {t : Str} {i : Nat} (h : (env nm w).shm t = some i) : ∃ k, nm t = some k ∧ w k ≠ none ∧ i = segOf k := by
  unfold env at h
  dsimp only at h
  split at h
  · cases h
  · rename_i k hk
    split at h
    · cases h
    · rename_i hw
      cases h
      exact ⟨k, hk, hw, rfl⟩

theorem env_none {nm : Str → Option Str} {w : Session.Store} {S : Lbs} (hh : Has w S) {t : Str} (hn : nm t = some t) : (env nm w).shm t = none ↔ S t = none := by
  unfold env
  dsimp only
  rw [hn]
  dsimp only
  rcases hh t with ⟨e, e'⟩ | ⟨s, lb, e, e', _⟩
  · simp [e, e']
  · simp [e, e']

/-- The table of an object. -/
theorem env_obj {nm : Str → Option Str} {w : Session.Store} {S : Lbs} (h : Has w S) {k : Str} (hk : S k ≠ none) :
    ∃ lb, S k = some lb ∧ MagInv ((env nm w).mag (segOf k)) ∧ activeMarks ((env nm w).mag (segOf k)).active = lb.targets := by
  rcases h k with ⟨_, e⟩ | ⟨s, lb, e, e', hs⟩
  · exact absurd e hk
  · refine ⟨lb, e', ?_⟩
    unfold env
    dsimp only
    rw [obj_seg, e]
    exact ⟨hs.inv, hs.targets⟩

/-! ### The flows of the user and those of the server -/

/-- The server has the flow `f` of the user as `g`. -/
structure Corr (st : FlowLb.St) (g : Flow.Flow) (f : Spec.FSys.Flow) : Prop where
  impl : Implements g { f.d with target := g.userRef }
  ref : g.userRef ≠ 0
  lb : ∃ l, st.heap g.userRef = some l ∧ l.target = f.shm

structure Rel (nm : Str → Option Str) (S : Lbs) (F : List Spec.FSys.Flow) (st : FlowLb.St) : Prop where
  fwd : ∀ g ∈ st.fset.flows, ∃ f ∈ F, Corr st g f
  bwd : ∀ f ∈ F, ∃ g ∈ st.fset.flows, Corr st g f
  objs : ∀ p l, st.heap p = some l → ∃ k, nm l.target = some k ∧ l.seg = segOf k
  good : ∀ f ∈ F, f.Good ∧ nm f.shm = some f.shm ∧ S f.shm ≠ none

theorem rel_encap {nm : Str → Option Str} {S : Lbs} {F : List Spec.FSys.Flow} {st : FlowLb.St} (h : Rel nm S F st) : ∀ g ∈ st.fset.flows, g.udpencap = 0 := by
  intro g hg
  obtain ⟨f, hf, c⟩ := h.fwd g hg
  rw [c.impl.udpencap]
  exact (h.good f hf).1.encap

/-- A load-balancer that is there belongs to a flow of the user. -/
theorem rel_lb {nm : Str → Option Str} {S : Lbs} {F : List Spec.FSys.Flow} {st : FlowLb.St} (h : Rel nm S F st) (hi : FlowLb.Inv ⟨st, []⟩) {p : Nat} {l : FlowLb.LB} (hl : st.heap p = some l) :
    ∃ g ∈ st.fset.flows, g.userRef = p ∧ ∃ f ∈ F, Corr st g f ∧ l.target = f.shm ∧ l.seg = segOf f.shm ∧ S f.shm ≠ none := by
  have hr := (hi.bal.count p l hl).2
  have : 0 < st.fset.flows.countP (fun g => g.userRef == p) := by
    have : 0 < FLB.refs ⟨st, []⟩ p := hr
    rw [FlowLb.refs_flows] at this
    simpa using this
  obtain ⟨g, hg, hp⟩ := List.countP_pos_iff.1 this
  have hp : g.userRef = p := by simpa using hp
  obtain ⟨f, hf, c⟩ := h.fwd g hg
  obtain ⟨l', h1, h2⟩ := c.lb
  rw [hp, hl] at h1
  cases h1
  obtain ⟨_, g2, g3⟩ := h.good f hf
  obtain ⟨k, k1, k2⟩ := h.objs p l hl
  rw [h2, g2] at k1
  cases k1
  exact ⟨g, hg, hp, f, hf, c, h2, k2, g3⟩

theorem back_objs {nm : Str → Option Str} {w : Session.Store} {st st' : FlowLb.St} (hb : Back (env nm w) st st') (h : ∀ p l, st.heap p = some l → ∃ k, nm l.target = some k ∧ l.seg = segOf k) :
    ∀ p l, st'.heap p = some l → ∃ k, nm l.target = some k ∧ l.seg = segOf k := by
  intro p l hl
  rcases hb.2 p l hl with ⟨l0, h0, e1, e2⟩ | ⟨_, e⟩
  · obtain ⟨k, k1, k2⟩ := h p l0 h0
    exact ⟨k, by rw [← e1]; exact k1, by rw [← e2]; exact k2⟩
  · obtain ⟨k, k1, _, k2⟩ := env_shm e
    exact ⟨k, k1, k2⟩

/-- Load-balancers of flows stay. -/
theorem back_lb {env : FlowLb.Env} {st st' : FlowLb.St} (hb : Back env st st') (hi : FlowLb.Inv ⟨st, []⟩) (hi' : FlowLb.Inv ⟨st', []⟩) {g : Flow.Flow} (hg : g ∈ st'.fset.flows) (h0 : g.userRef ≠ 0)
    {l : FlowLb.LB} (hl : st.heap g.userRef = some l) : ∃ l', st'.heap g.userRef = some l' ∧ l'.target = l.target ∧ l'.seg = l.seg := by
  cases h : st'.heap g.userRef with
  | none =>
    have := hi'.bal.dead _ h0 h
    have h2 : 0 < FLB.refs ⟨st', []⟩ g.userRef := FlowLb.flow_refs (s := ⟨st', []⟩) hg
    omega
  | some l' =>
    rcases hb.2 _ _ h with ⟨l0, h1, e1, e2⟩ | ⟨h1, _⟩
    · rw [hl] at h1
      cases h1
      exact ⟨l', rfl, e1.symm, e2.symm⟩
    · have := hi.bal.fresh _ h1
      rw [hl] at this
      cases this

theorem back_corr {env : FlowLb.Env} {st st' : FlowLb.St} (hb : Back env st st') (hi : FlowLb.Inv ⟨st, []⟩) (hi' : FlowLb.Inv ⟨st', []⟩) {g : Flow.Flow} {f : Spec.FSys.Flow} (hg : g ∈ st'.fset.flows) (h : Corr st g f) : Corr st' g f := by
  obtain ⟨l, h1, h2⟩ := h.lb
  obtain ⟨l', e1, e2, _⟩ := back_lb hb hi hi' hg h.ref h1
  exact ⟨h.impl, h.ref, l', e1, by rw [e2, h2]⟩

theorem rel_same {nm : Str → Option Str} {w : Session.Store} {S : Lbs} {F : List Spec.FSys.Flow} {st st' : FlowLb.St} (h : Rel nm S F st) (hb : Back (env nm w) st st') (hi : FlowLb.Inv ⟨st, []⟩) (hi' : FlowLb.Inv ⟨st', []⟩)
    (hf : st'.fset = st.fset) : Rel nm S F st' := by
  refine ⟨?_, ?_, back_objs hb h.objs, h.good⟩
  · intro g hg
    have hg' : g ∈ st.fset.flows := by rw [← hf]; exact hg
    obtain ⟨f, hf, c⟩ := h.fwd g hg'
    exact ⟨f, hf, back_corr hb hi hi' hg c⟩
  · intro f hff
    obtain ⟨g, hg, c⟩ := h.bwd f hff
    have hg' : g ∈ st'.fset.flows := by rw [hf]; exact hg
    exact ⟨g, hg', back_corr hb hi hi' hg' c⟩

theorem rel_after {nm : Str → Option Str} {w : Session.Store} {S : Lbs} {F : List Spec.FSys.Flow} {st st' : FlowLb.St} (h : Rel nm S F st) (hb : Back (env nm w) st st') (hi : FlowLb.Inv ⟨st, []⟩) (hi' : FlowLb.Inv ⟨st', []⟩)
    {f : Spec.FSys.Flow} (hf : f.Good ∧ nm f.shm = some f.shm ∧ S f.shm ≠ none) {g : Flow.Flow} (ha : Flow.After st.fset st'.fset g) (hg : Corr st' g f) : Rel nm S (setFlow S F f) st' := by
  have hname : g.name = f.d.name := hg.impl.name
  unfold setFlow
  rw [if_neg hf.2.2]
  refine ⟨?_, ?_, back_objs hb h.objs, ?_⟩
  · intro x hx
    rcases FlowLb.mem_after ha hx with rfl | ⟨h1, h2⟩
    · exact ⟨f, by simp, hg⟩
    · obtain ⟨y, hy, c⟩ := h.fwd x h1
      refine ⟨y, ?_, back_corr hb hi hi' hx c⟩
      have : x.name = y.d.name := c.impl.name
      refine List.mem_cons_of_mem _ (List.mem_filter.2 ⟨hy, ?_⟩)
      rw [← this, ← hname]
      simpa using h2
  · intro y hy
    rcases List.mem_cons.1 hy with rfl | hy
    · exact ⟨g, (ha.2.mem_iff).2 (by simp), hg⟩
    · obtain ⟨hy, hne⟩ := List.mem_filter.1 hy
      obtain ⟨x, hx, c⟩ := h.bwd y hy
      have hxy : x.name = y.d.name := c.impl.name
      have hx' : x ∈ st'.fset.flows := by
        refine (ha.2.mem_iff).2 (List.mem_cons_of_mem _ (List.mem_filter.2 ⟨hx, ?_⟩))
        rw [hxy, hname]
        simpa using hne
      exact ⟨x, hx', back_corr hb hi hi' hx' c⟩
  · intro y hy
    rcases List.mem_cons.1 hy with rfl | hy
    · exact hf
    · exact h.good y (List.mem_filter.1 hy).1

theorem rel_delete {nm : Str → Option Str} {w : Session.Store} {S : Lbs} {F : List Spec.FSys.Flow} {st st' : FlowLb.St} (h : Rel nm S F st) (hb : Back (env nm w) st st') (hi : FlowLb.Inv ⟨st, []⟩) (hi' : FlowLb.Inv ⟨st', []⟩)
    {n : Str} (hf : st'.fset.flows = st.fset.flows.filter (fun g => g.name ≠ n)) : Rel nm S (deleteFlow F n) st' := by
  refine ⟨?_, ?_, back_objs hb h.objs, fun y hy => h.good y (List.mem_filter.1 hy).1⟩
  · intro x hx
    have hx' := hx
    rw [hf] at hx'
    obtain ⟨h1, h2⟩ := List.mem_filter.1 hx'
    obtain ⟨y, hy, c⟩ := h.fwd x h1
    have : x.name = y.d.name := c.impl.name
    exact ⟨y, List.mem_filter.2 ⟨hy, by rw [← this]; exact h2⟩, back_corr hb hi hi' hx c⟩
  · intro y hy
    obtain ⟨hy, hne⟩ := List.mem_filter.1 hy
    obtain ⟨x, hx, c⟩ := h.bwd y hy
    have hxy : x.name = y.d.name := c.impl.name
    have hx' : x ∈ st'.fset.flows := by
      rw [hf]
      exact List.mem_filter.2 ⟨hx, by rw [hxy]; exact hne⟩
    exact ⟨x, hx', back_corr hb hi hi' hx' c⟩

/-! ### Which flows match -/

theorem rel_nowrap {nm : Str → Option Str} {S : Lbs} {F : List Spec.FSys.Flow} {st : FlowLb.St} (h : Rel nm S F st) : NoWrap st.fset := by
  intro g hg m hm i hi
  obtain ⟨f, hf, c⟩ := h.fwd g hg
  have hw := (h.good f hf).1.wf
  rcases c.impl.mtch with ⟨_, e⟩ | ⟨es, m', e1, e2, e3⟩
  · rw [hm] at e; cases e
  · rw [hm] at e2
    cases e2
    have e1 : f.d.mtch = some es := e1
    have hes := hw.mtch es e1
    rw [Match.addAll_exprs es [] (fun e he => ⟨(hes e he).1, (hes e he).2.2.2, Match.plain_in (hes e he).2.1 (hes e he).2.2.1⟩)] at e3
    cases e3
    rw [List.nil_append, List.mem_map] at hi
    obtain ⟨e, he, rfl⟩ := hi
    obtain ⟨_, hp, hin, _⟩ := hes e he
    show Match.cnum e.offset + e.nbytes < _
    rw [Match.cnum_plain hp.1 hp.2.1]
    have h2 : e.off + e.nbytes ≤ e.proto.hlen := hin
    have : e.proto.hlen ≤ 20 := by cases e.proto <;> decide
    show e.off + e.nbytes < _
    omega

/-- The flow of the server matches exactly the packets that the flow of the user is for. -/
theorem match_for {st : FlowLb.St} {F : List Spec.FSys.Flow} {g : Flow.Flow} {f : Spec.FSys.Flow} (hfF : f ∈ F) (c : Corr st g f) (hw : f.Good) {q : Queued} {t : Tuple} {hdr : Option (BM.Proto × List UInt8)} (ht : FlowOf 0 q t) (hh : Header F q t hdr) (ping : Bool) :
    ∃ v, flowMatch (flowKey t.src t.dst t.proto t.sport t.dport) g ping q.proto q.data = .ok v ∧ (v ≠ .no ↔ f.For t hdr) := by
  have hlen : t.src.length = 16 ∧ t.dst.length = 16 ∧ HasPorts t.proto := by
    rcases ht with ⟨x, l, h1, _, _, h2, _, _, _, _, rfl⟩ | ⟨x, l, h1, _, h2, _, _, _, _, rfl⟩
    · exact ⟨rfl, rfl, h2⟩
    · exact ⟨h1.2.1, h1.2.2, h2⟩
  have hicmp : ¬ IsIcmp (flowKey t.src t.dst t.proto t.sport t.dport) := by
    obtain ⟨_, _, h⟩ := hlen
    intro hi
    unfold IsIcmp flowKey at hi
    dsimp only at hi
    rcases h with h | h | h <;> rw [h] at hi <;> revert hi <;> decide
  have hm : ∀ (d : Def) p, d.Matches p (flowKey t.src t.dst t.proto t.sport t.dport) hdr ↔ d.AddressMatch (flowKey t.src t.dst t.proto t.sport t.dport) ∧ d.OtherMatch (flowKey t.src t.dst t.proto t.sport t.dport) hdr := by
    intro d p
    unfold Def.Matches
    constructor
    · rintro ⟨a, b⟩
      exact ⟨a, b.resolve_left (fun h => hicmp h.2)⟩
    · rintro ⟨a, b⟩
      exact ⟨a, .inr b⟩
  have hd : ({ f.d with target := g.userRef } : Def).WF := ⟨hw.wf.name, hw.wf.protocols, hw.wf.dports, hw.wf.sports, hw.wf.dsts, hw.wf.srcs, hw.wf.mtch⟩
  have key := Props.C39_implements c.impl hd ping (flowKey t.src t.dst t.proto t.sport t.dport) hlen.1 hlen.2.1
  cases hdr with
  | none =>
    obtain ⟨v, h1, h2⟩ := key.2.2 (hh f hfF) q.proto q.data
    exact ⟨v, h1, h2.trans (hm _ _)⟩
  | some x =>
    obtain ⟨p, h⟩ := x
    obtain ⟨v, h1, h2⟩ := key.2.1 q.proto t.proto q.data p h hh rfl
    exact ⟨v, h1, h2.trans (hm _ _)⟩

/-! ### What the handler decides -/

/-- The answer for a packet with these addresses and ports follows from the flows and the tables as they are. -/
def Decided (nm : Str → Option Str) (w : Session.Store) (s : Start.Started) (st : FlowLb.St) (q : Queued) (t : Tuple) (r : Int) : Prop :=
  ∃ lb, flowLookup st.fset (flowKey t.src t.dst t.proto t.sport t.dport) q.proto q.data 0 = .ok (lb, 0) ∧
    ((lb = 0 ∧ r = s.nolb) ∨ (lb ≠ 0 ∧ ∃ l fw, st.heap lb = some l ∧ Maglev.target ((env nm w).mag l.seg) (hashKey (flowKey t.src t.dst t.proto t.sport t.dport) s.hashMode) = .ok fw ∧
      r = if fw < 0 then s.notargets else fw))

theorem decided_back {nm : Str → Option Str} {w : Session.Store} {s : Start.Started} {st st' : FlowLb.St} {q : Queued} {t : Tuple} {r : Int} (h : Decided nm w s st q t r)
    {e : FlowLb.Env} (hb : Back e st st') (hi : FlowLb.Inv ⟨st, []⟩) (hi' : FlowLb.Inv ⟨st', []⟩) (hf : st'.fset = st.fset) : Decided nm w s st' q t r := by
  obtain ⟨lb, h1, h2⟩ := h
  refine ⟨lb, by rw [hf]; exact h1, ?_⟩
  rcases h2 with h2 | ⟨h0, l, fw, h3, h4⟩
  · exact .inl h2
  · refine .inr ⟨h0, ?_⟩
    rcases Flow.lookup_spec _ hi.flowset.sorted h1 with ⟨h5, _⟩ | ⟨_, g, hg, h5, _⟩
    · exact absurd h5 h0
    · subst h5
      obtain ⟨l', e1, _, e3⟩ := back_lb hb hi hi' (by rw [hf]; exact hg) h0 h3
      exact ⟨l', fw, e1, by rw [e3]; exact h4⟩

theorem not_encap {q : Queued} {t : Tuple} (ht : FlowOf 0 q t) (hu : ¬ FLB.UdpPort0 q.proto q.data) : FlowLb.isEncap (flowKey t.src t.dst t.proto t.sport t.dport) 0 = false := by
  unfold FlowLb.isEncap
  refine decide_eq_false ?_
  rintro ⟨h1, h2⟩
  refine hu ⟨_, Sys.flow_key ht, ?_, ?_⟩
  · have hp : (t.proto.toNat) = 17 := by
      have : Flow.protoNum (flowKey t.src t.dst t.proto t.sport t.dport) = t.proto.toNat := by
        simp [Flow.protoNum, flowKey]
      omega
    show ((t.proto, 0) : Raw16) = (17, 0)
    rw [show t.proto = 17 from UInt8.toNat_inj.1 hp]
  · have h2 : ntohs t.dport = 0 := h2
    show t.dport = (0, 0)
    unfold ntohs at h2
    have e1 : t.dport.1 = 0 := UInt8.toNat_inj.1 (by show _ = 0; omega)
    have e2 : t.dport.2 = 0 := UInt8.toNat_inj.1 (by show _ = 0; omega)
    exact Prod.ext e1 e2

theorem flow_decided {nm : Str → Option Str} {w : Session.Store} {c : FlowLb.Conf} {s : Start.Started} (hc : c.hashMode = s.hashMode ∧ c.notargets = s.notargets ∧ c.nolb = s.nolb) {st st' : FlowLb.St} (hi : FlowLb.Inv ⟨st, []⟩)
    (hz : ∀ g ∈ st.fset.flows, g.udpencap = 0) {q : Queued} {t : Tuple} (ht : FlowOf 0 q t) (hu : ¬ FLB.UdpPort0 q.proto q.data) {act : LbAction} (h : FlowLb.pktHandle c (env nm w) st q.proto q.data = .ok (st', act)) :
    ∃ r, act = .verdict r ∧ Decided nm w s st q t r := by
  unfold FlowLb.pktHandle FlowLb.pktBegin at h
  rw [Sys.flow_key ht] at h
  simp only [Res.ok_bind, Res.pure_eq] at h
  rw [if_neg (by decide), if_neg (by decide)] at h
  rw [if_neg (by decide)] at h
  unfold FlowLb.pktLookup at h
  obtain ⟨⟨st1, r1⟩, e1, h⟩ := Server.bind_ok h
  obtain ⟨⟨st2, lb, v⟩, e2, e1⟩ := Server.bind_ok e1
  have e2' := e2
  unfold FlowLb.lookup at e2'
  obtain ⟨⟨lb', v'⟩, e3, e2'⟩ := Server.bind_ok e2'
  have hv : v' = 0 := FlowLb.lookup_no_encap _ hz e3
  subst hv
  obtain ⟨hlb, hv, hst⟩ : lb = lb' ∧ v = 0 ∧ ∀ l', st2.heap lb = some l' → ∃ l, st.heap lb = some l ∧ l.seg = l'.seg := by
    have hb := FlowLb.lookup_same (env nm w) e2
    have key : lb = lb' ∧ v = 0 := by
      dsimp only at e2'
      split at e2'
      · rename_i h0; cases e2'; exact ⟨h0.symm, rfl⟩
      · obtain ⟨st3, e4, e2'⟩ := Server.bind_ok e2'
        cases e2'
        exact ⟨rfl, rfl⟩
    refine ⟨key.1, key.2, ?_⟩
    intro l' hl'
    rcases hb.2 _ _ hl' with ⟨l, k1, _, k2⟩ | ⟨k1, _⟩
    · exact ⟨l, k1, k2⟩
    · exfalso
      by_cases h0 : lb = 0
      · rw [h0] at k1
        have := hi.bal.pos
        dsimp only at this
        omega
      · rcases Flow.lookup_spec _ hi.flowset.sorted e3 with ⟨h5, _⟩ | ⟨_, g, hg, h5, _⟩
        · exact h0 (key.1.trans h5)
        · have h6 := hi.bal.fresh _ k1
          have h7 := hi.bal.dead _ h0 h6
          have h8 : 0 < FLB.refs ⟨st, []⟩ g.userRef := FlowLb.flow_refs (s := ⟨st, []⟩) hg
          rw [h5, ← key.1] at h8
          omega
  subst hlb hv
  dsimp only at e1
  rw [not_encap ht hu, if_neg (by decide)] at e1
  by_cases h0 : lb = 0
  · rw [if_pos h0] at e1
    cases e1
    cases h
    exact ⟨_, rfl, lb, e3, .inl ⟨h0, hc.2.2⟩⟩
  · rw [if_neg h0] at e1
    cases e1
    dsimp only at h
    unfold FlowLb.pktEnd at h
    split at h
    · cases h
    · rename_i l' hl'
      obtain ⟨l, hl, hseg⟩ := hst l' hl'
      obtain ⟨fw, e4, h⟩ := Server.bind_ok h
      obtain ⟨st3, e5, h⟩ := Server.bind_ok h
      dsimp only at e4
      rw [← hseg, hc.1] at e4
      split at h
      · rename_i hneg
        cases h
        exact ⟨_, rfl, lb, e3, .inr ⟨h0, l, fw, hl, e4, by rw [if_pos hneg]; exact hc.2.1⟩⟩
      · rename_i hneg
        rw [if_neg (show ¬ (0 : Int) % 2 = 1 by decide)] at h
        cases h
        exact ⟨_, rfl, lb, e3, .inr ⟨h0, l, fw, hl, e4, by rw [if_neg hneg]⟩⟩

/-- What is configured. -/
def cfgOf (p : Proc) : Cfg := ⟨p.lbshm, p.s.notargets, p.s.nolb⟩

/-- The load-balancer of a flow gives what is right for the flow. -/
theorem from_targets {nm : Str → Option Str} {w : Session.Store} {S : Lbs} (hh : Has w S) {f : Spec.FSys.Flow} (hS : S f.shm ≠ none) (c : Cfg) (hash : Nat) :
    ∃ fw, Maglev.target ((env nm w).mag (segOf f.shm)) hash = .ok fw ∧ From c S f (if fw < 0 then c.notargets else fw) := by
  obtain ⟨lb, h1, h2, h3⟩ := env_obj (nm := nm) hh hS
  obtain ⟨fw, e, h⟩ := target_cases h2 hash
  rw [h3] at h
  refine ⟨fw, e, lb, h1, ?_, ?_⟩
  · intro hne
    rcases h with ⟨_, h, h0⟩ | ⟨h, _⟩
    · rw [if_neg (by omega)]; exact h
    · exact absurd h hne
  · intro he
    rcases h with ⟨h, _⟩ | ⟨_, h⟩
    · exact absurd he h
    · rw [if_pos (by omega)]

/-- The decision is the one that the user expects. -/
theorem decided_chosen {nm : Str → Option Str} {w : Session.Store} {S : Lbs} {F : List Spec.FSys.Flow} {s : Start.Started} {lbshm : Option Str} {st : FlowLb.St} (hh : Has w S) (hr : Rel nm S F st) (hi : FlowLb.Inv ⟨st, []⟩)
    {q : Queued} {t : Tuple} {r : Int} (ht : FlowOf 0 q t) {hdr : Option (BM.Proto × List UInt8)} (hd : Header F q t hdr) (h : Decided nm w s st q t r) : Chosen ⟨lbshm, s.notargets, s.nolb⟩ S F t hdr r := by
  obtain ⟨lb, h1, h2⟩ := h
  rcases h2 with ⟨h0, hrr⟩ | ⟨h0, l, fw, h3, h4, h5⟩
  · refine .inl ⟨?_, hrr⟩
    intro f hf hfor
    obtain ⟨g, hg, c⟩ := hr.bwd f hf
    rcases Flow.lookup_spec _ hi.flowset.sorted h1 with ⟨_, k⟩ | ⟨k, _⟩
    · have := k g hg c.ref
      obtain ⟨v, e1, e2⟩ := match_for hf c (hr.good f hf).1 ht hd st.fset.ping
      rw [this] at e1
      cases e1
      exact e2.2 hfor rfl
    · exact k h0
  · rcases Flow.lookup_spec _ hi.flowset.sorted h1 with ⟨k, _⟩ | ⟨_, g, hg, k1, k2, k3⟩
    · exact absurd k h0
    obtain ⟨f, hf, c⟩ := hr.fwd g hg
    obtain ⟨v, e1, e2⟩ := match_for hf c (hr.good f hf).1 ht hd st.fset.ping
    refine .inr ⟨f, hf, ?_, ?_, ?_⟩
    · refine e2.1 ?_
      rcases k2 with k2 | ⟨k2, _⟩ <;> rw [k2] at e1 <;> cases e1 <;> decide
    · intro f' hf' hfor
      obtain ⟨g', hg', c'⟩ := hr.bwd f' hf'
      obtain ⟨v', e1', e2'⟩ := match_for hf' c' (hr.good f' hf').1 ht hd st.fset.ping
      have p1 : g.priority = f.d.priority := c.impl.priority
      have p2 : g'.priority = f'.d.priority := c'.impl.priority
      by_contra hlt
      have := k3 g' hg' c'.ref (by omega)
      rw [this] at e1'
      cases e1'
      exact e2'.2 hfor rfl
    · obtain ⟨_, g2, g3⟩ := hr.good f hf
      obtain ⟨l', h6, h7⟩ := c.lb
      rw [k1, h3] at h6
      cases h6
      obtain ⟨k, o1, o2⟩ := hr.objs _ _ h3
      rw [h7, g2] at o1
      cases o1
      obtain ⟨fw', e4, e5⟩ := from_targets (nm := nm) hh g3 ⟨lbshm, s.notargets, s.nolb⟩ (hashKey (flowKey t.src t.dst t.proto t.sport t.dport) s.hashMode)
      rw [o2, e4] at h4
      cases h4
      rw [h5]
      exact e5

/-- Two packets with the same addresses and ports that the same flows are for. -/
theorem decided_same {nm : Str → Option Str} {w : Session.Store} {S : Lbs} {F : List Spec.FSys.Flow} {s : Start.Started} {st : FlowLb.St} (hr : Rel nm S F st)
    {q q' : Queued} {t : Tuple} {r r' : Int} (ht : FlowOf 0 q t) (ht' : FlowOf 0 q' t) {hdr hdr' : Option (BM.Proto × List UInt8)} (hd : Header F q t hdr) (hd' : Header F q' t hdr')
    (hf : ∀ f ∈ F, f.For t hdr ↔ f.For t hdr') (h : Decided nm w s st q t r) (h' : Decided nm w s st q' t r') : r' = r := by
  obtain ⟨lb, h1, h2⟩ := h
  obtain ⟨lb', h1', h2'⟩ := h'
  have : flowLookup st.fset (flowKey t.src t.dst t.proto t.sport t.dport) q.proto q.data 0 = flowLookup st.fset (flowKey t.src t.dst t.proto t.sport t.dport) q'.proto q'.data 0 := by
    unfold flowLookup
    refine FlowLb.lookup_congr _ (rel_encap hr) ?_
    intro g hg
    obtain ⟨f, hfF, c⟩ := hr.fwd g hg
    obtain ⟨v, e1, e2⟩ := match_for hfF c (hr.good f hfF).1 ht hd st.fset.ping
    obtain ⟨v', e1', e2'⟩ := match_for hfF c (hr.good f hfF).1 ht' hd' st.fset.ping
    exact ⟨v, v', e1, e1', e2.trans ((hf f hfF).trans e2'.symm)⟩
  rw [this, h1'] at h1
  cases h1
  rcases h2 with ⟨h0, rfl⟩ | ⟨h0, l, fw, h3, h4, rfl⟩
  · rcases h2' with ⟨_, rfl⟩ | ⟨h0', _⟩
    · rfl
    · exact absurd h0 h0'
  · rcases h2' with ⟨h0', _⟩ | ⟨_, l', fw', h3', h4', rfl⟩
    · exact absurd h0' h0
    · rw [h3] at h3'
      cases h3'
      rw [h4] at h4'
      cases h4'
      rfl

/-! ### All packets -/

/-- The handler for any packet that is not cut off. -/
theorem handle_ok {nm : Str → Option Str} {w : Session.Store} {S : Lbs} {F : List Spec.FSys.Flow} {srv : Server.Srv} (hh : Has w S) (hr : Rel nm S F srv.st) (hs : Server.SInv ⟨srv, []⟩) {c : FlowLb.Conf}
    (ht : ∀ d own, c.tier = some (d, own) → MagInv d) {q : Queued} (hw : Whole q.proto q.data) (hu : ¬ FLB.UdpPort0 q.proto q.data) :
    ∃ st' act, FlowLb.pktHandle c (env nm w) srv.st q.proto q.data = .ok (st', act) ∧ st'.fset = srv.st.fset ∧ FlowLb.Inv ⟨st', []⟩ ∧ Back (env nm w) srv.st st' := by
  have hd : ∀ f ∈ srv.st.fset.flows, Flow.Draw f := fun f hf => (hs.draw f hf).1
  obtain ⟨st1, r, e1, hfr⟩ := Server.pktBegin_total (conf := c) hs.inv hd (rel_nowrap hr) ht hw hu
  obtain ⟨hf1, hc⟩ := FlowLb.pktBegin_inv hs.inv hu e1
  rcases hc with ⟨a, rfl, hi⟩ | ⟨lb, p, rfl, hi⟩
  · have e : FlowLb.pktHandle c (env nm w) srv.st q.proto q.data = .ok (st1, a) := by
      unfold FlowLb.pktHandle
      rw [e1]
      rfl
    exact ⟨st1, a, e, hf1, hi, FlowLb.pktHandle_same _ _ e⟩
  · obtain ⟨st2, a, e2⟩ := Server.pktEnd_total (i := 0) hi rfl (hfr lb p rfl) c (env_mag (nm := nm) hh)
    have e : FlowLb.pktHandle c (env nm w) srv.st q.proto q.data = .ok (st2, a) := by
      unfold FlowLb.pktHandle
      rw [e1]
      exact e2
    obtain ⟨l, st3, h1, h2, h3, h4⟩ := FlowLb.pktEnd_inv (i := 0) hi rfl
    have : st3 = st2 := by
      unfold FlowLb.pktEnd at e2
      dsimp only at h1 h2
      rw [h1] at e2
      dsimp only at e2
      obtain ⟨fw, _, e2⟩ := Server.bind_ok e2
      rw [h2, Res.ok_bind] at e2
      split at e2
      · cases e2; rfl
      split at e2
      · obtain ⟨k, _, e2⟩ := Server.bind_ok e2
        cases e2; rfl
      · cases e2; rfl
    subst this
    exact ⟨_, a, e, h3.trans hf1, h4, FlowLb.pktHandle_same _ _ e⟩

/-- What the handler decides for any packet. -/
theorem flow_cases {nm : Str → Option Str} {w : Session.Store} {S : Lbs} {F : List Spec.FSys.Flow} {st st' : FlowLb.St} (hh : Has w S) (hr : Rel nm S F st) (hi : FlowLb.Inv ⟨st, []⟩) {c : FlowLb.Conf} {cfg : Cfg} (hcfg : cfg.notargets = c.notargets)
    (ht : ∀ d own, c.tier = some (d, own) → MagInv d) {q : Queued} {act : LbAction} (h : FlowLb.pktHandle c (env nm w) st q.proto q.data = .ok (st', act)) :
    act = .verdict (-1) ∨ act = .verdict c.nolb ∨
        (∃ fw d own, act = .verdict fw ∧ Fragment q ∧ c.tier = some (d, own) ∧ fw ∈ activeMarks d.active ∧ fw ≠ own) ∨
        (∃ fw, (act = .verdict fw ∨ ∃ k, act = .first k fw) ∧ ∃ f ∈ F, From cfg S f fw) ∨
        ∃ k, act = .later k ∧ Fragment q ∧ Sys.KeyOf q k := by
  obtain ⟨p, hp, hc⟩ := FlowLb.handle_cases (env_mag hh) ht h
  rcases hc with ⟨_, rfl⟩ | ⟨h4, d, own, fw, e, h1, h2, rfl⟩ | ⟨h4, h2, rfl⟩ | ⟨h0, _, k, _, ⟨_, rfl⟩ | ⟨lb, v, _, ⟨_, rfl⟩ | ⟨hlb, l, hl, hv⟩⟩⟩
  · exact .inl rfl
  · refine .inr (.inr (.inl ⟨fw, d, own, rfl, ?_, e, h1, h2⟩))
    rcases Sys.key_of hp with hn | hk
    · exfalso
      have e2 : FlowLb.pktHandle c (env nm w) st q.proto q.data = .ok (st, .verdict (-1)) := by
        unfold FlowLb.pktHandle FlowLb.pktBegin
        rw [hp]
        simp only [Res.ok_bind, Res.pure_eq]
        rw [if_pos hn]
        rfl
      rw [e2] at h
      cases h
      have := mem_activeMarks_nonneg h1
      omega
    · exact (hk h4).1
  · rcases Sys.key_of hp with hn | hk
    · exfalso
      have e2 : FlowLb.pktHandle c (env nm w) st q.proto q.data = .ok (st, .verdict (-1)) := by
        unfold FlowLb.pktHandle FlowLb.pktBegin
        rw [hp]
        simp only [Res.ok_bind, Res.pure_eq]
        rw [if_pos hn]
        rfl
      rw [e2] at h
      cases h
    · exact .inr (.inr (.inr (.inr ⟨_, rfl, (hk h4).1, (hk h4).2.1 h2⟩)))
  · exact .inl rfl
  · exact .inr (.inl rfl)
  · obtain ⟨g, _, _, f, hf, _, _, hseg, hS⟩ := rel_lb hr hi hl
    obtain ⟨lb', s1, s2, s3⟩ := env_obj (nm := nm) hh hS
    rw [hseg, s3] at hv
    rcases hv with ⟨he, rfl⟩ | ⟨fw, hm, _, hv⟩
    · exact .inr (.inr (.inr (.inl ⟨_, .inl rfl, f, hf, lb', s1, fun hne => absurd he hne, fun _ => hcfg.symm⟩)))
    · refine .inr (.inr (.inr (.inl ⟨fw, ?_, f, hf, lb', s1, fun _ => hm, fun he => ?_⟩)))
      · rcases hv with ⟨_, rfl⟩ | ⟨_, k, _, rfl⟩
        · exact .inl rfl
        · exact .inr ⟨k, rfl⟩
      · rw [he] at hm
        simp at hm

/-! ### The whole -/

/-- What holds between the events. -/
structure Inv (nm : Str → Option Str) (N MB MF T : Nat) (w : Session.Store) (p : Proc) (S : Lbs) (F : List Spec.FSys.Flow) (past recent : List (Queued × Int)) (t : Nat) : Prop where
  has : Has w S
  small : Small S
  srv : Server.SInv ⟨p.srv, []⟩
  rel : Rel nm S F p.srv.st
  nt : -2147483648 ≤ p.s.notargets ∧ p.s.notargets < 2147483648
  nolb : -2147483648 ≤ p.s.nolb ∧ p.s.nolb < 2147483648
  tier : ∀ j, p.lbshm = some j → S j ≠ none
  range : ∀ q r, (q, r) ∈ past → -2147483648 ≤ r ∧ r < 2147483648
  table : ∃ t0 h, t0 ≤ t ∧ Frag.FInv N MB MF T p.ft t0 0 ∧ Orig h p.ft t0 ∧ ∀ a v, (a, v) ∈ h → ∃ q, (q, v) ∈ past ∧ a.proto = q.proto ∧ a.data = q.data
  same : ∀ q r f, (q, r) ∈ recent → FlowOf 0 q f → Decided nm w p.s p.srv.st q f r

/-- What the handler works with is what the user has configured. -/
theorem conf_ok {w : Session.Store} {p : Proc} {S : Lbs} (hh : Has w S) (ht : ∀ j, p.lbshm = some j → S j ≠ none) :
    ∃ c, conf w p = some c ∧ (c.hashMode = p.s.hashMode ∧ c.notargets = p.s.notargets ∧ c.nolb = p.s.nolb) ∧
      ∀ d own, c.tier = some (d, own) → MagInv d ∧ ∃ j lb', p.lbshm = some j ∧ S j = some lb' ∧ activeMarks d.active = lb'.targets ∧ own = lb'.own := by
  unfold conf
  cases hj : p.lbshm with
  | none => exact ⟨_, rfl, ⟨rfl, rfl, rfl⟩, fun d own h => by cases h⟩
  | some j =>
    rcases hh j with ⟨_, h⟩ | ⟨u, lb', g1, g2, hu⟩
    · exact absurd h (ht j hj)
    dsimp only
    rw [g1]
    dsimp only
    refine ⟨_, rfl, ⟨rfl, rfl, rfl⟩, ?_⟩
    intro d own h
    cases h
    exact ⟨hu.inv, j, lb', rfl, g2, hu.targets, hu.own⟩

theorem objects_of {nm : Str → Option Str} {S : Lbs} {F : List Spec.FSys.Flow} {st : FlowLb.St} (hr : Rel nm S F st) (hi : FlowLb.Inv ⟨st, []⟩) {k : Str} (hk : k ∈ objects st) : ∃ f ∈ F, k = f.shm ∧ S k ≠ none := by
  unfold objects at hk
  obtain ⟨p, _, hp⟩ := List.mem_filterMap.1 hk
  cases hl : st.heap p with
  | none => rw [hl] at hp; cases hp
  | some l =>
    rw [hl] at hp
    have hp : objOf l.seg = k := Option.some.inj hp
    obtain ⟨_, _, _, f, hf, _, _, e, hS⟩ := rel_lb hr hi hl
    rw [e, obj_seg] at hp
    subst hp
    exact ⟨f, hf, rfl, hS⟩

theorem objects_there {nm : Str → Option Str} {w : Session.Store} {S : Lbs} {F : List Spec.FSys.Flow} {st : FlowLb.St} (hh : Has w S) (hr : Rel nm S F st) (hi : FlowLb.Inv ⟨st, []⟩) : (objects st).any (fun k => decide (w k = none)) = false := by
  rw [Bool.eq_false_iff]
  intro h
  obtain ⟨k, hk, hw⟩ := List.any_eq_true.1 h
  have hw := of_decide_eq_true hw
  obtain ⟨_, _, _, hS⟩ := objects_of hr hi hk
  rcases hh k with ⟨_, e⟩ | ⟨s, lb, e, _⟩
  · exact hS e
  · rw [hw] at e; cases e

/-- The server is as before, but for locked load-balancers. -/
theorem sinv_same {srv : Server.Srv} {st' : FlowLb.St} (h : Server.SInv ⟨srv, []⟩) (hf : st'.fset = srv.st.fset) (hi : FlowLb.Inv ⟨st', []⟩) : Server.SInv ⟨{ srv with st := st' }, []⟩ :=
  ⟨hi, by show ∀ f ∈ st'.fset.flows, _; rw [hf]; exact h.draw, h.tset, h.tdraw, h.tname, h.tref, h.fresh⟩

/-- One packet. -/
theorem packet_ok {nm : Str → Option Str} {N MB MF T page : Nat} (hp : 40 ≤ page) {w : Session.Store} {p : Proc} {S : Lbs} {F : List Spec.FSys.Flow} {past recent : List (Queued × Int)} {t : Nat} (i : Inv nm N MB MF T w p S F past recent t)
    {q : Queued} {m : Nfq.Msg} {x : Sys.Ctx} (hm : Carries m q) (hw : Whole q.proto q.data) (hu : ¬ FLB.UdpPort0 q.proto q.data) (ht : t ≤ x.now) (h64 : x.now < 2 ^ 64) :
    ∃ p' o r, packet nm page w p m x = .ok (p', [o]) ∧ cfgOf p' = cfgOf p ∧ Reads o q r ∧
      (r = -1 ∨ r = (cfgOf p).nolb ∨ (∃ f ∈ F, From (cfgOf p) S f r) ∨ Fragment q ∧ (Tier (cfgOf p) S r ∨ ∃ q', (q', r) ∈ past ∧ Fragment q' ∧ SameDatagram q q')) ∧
      (∀ f hdr, FlowOf 0 q f → Header F q f hdr → Chosen (cfgOf p) S F f hdr r ∧
        ∀ q' r' hdr', (q', r') ∈ recent → FlowOf 0 q' f → Header F q' f hdr' → (∀ g ∈ F, g.For f hdr ↔ g.For f hdr') → r' = r) ∧
      Inv nm N MB MF T w p' S F ((q, r) :: past) ((q, r) :: recent) x.now := by
  obtain ⟨c, hc, hcc, htier⟩ := conf_ok i.has i.tier
  obtain ⟨t0, h, ht0, hfi, hor, hh⟩ := i.table
  have hinv := i.srv.inv
  obtain ⟨st', act, hact2, hfs, hi', hb⟩ := handle_ok (c := c) i.has i.rel i.srv (fun d own e => (htier d own e).1) hw hu
  have hcases := flow_cases (cfg := cfgOf p) i.has i.rel hinv hcc.2.1.symm (fun d own e => (htier d own e).1) hact2
  let a : Arrival := ⟨.flowlb c (env nm w) p.srv.st, q.proto, q.data, x.now, x.id, x.newOk, x.rcAsm⟩
  have haa : action a = .ok act := by
    unfold action
    dsimp only [a]
    rw [hact2]
    rfl
  obtain ⟨ft', v, inj, t', hhandle, _, ht', hfi', hor', hlater⟩ := handle_inv hfi hor a (by show t0 ≤ x.now; omega) h64 haa
  have hfin : finish p.ft a act = .ok (ft', v, inj) := by
    unfold handle at hhandle
    rw [haa, Res.ok_bind] at hhandle
    exact hhandle
  have hpast : ∀ k, Sys.KeyOf q k → Reg h k v → ∃ q', (q', v) ∈ past ∧ Fragment q' ∧ SameDatagram q q' := by
    rintro k hk ⟨h1, f, h2, hs, hf, _⟩
    obtain ⟨q', hq', e1, e2⟩ := hh f v (by rw [hs]; simp)
    obtain ⟨_, e, p', e3, e4, e5, e6⟩ := first_cases hf
    rw [e1, e2] at e3
    have hk' := (Sys.key_of e3).resolve_left (by omega)
    exact ⟨q', hq', (hk' (by omega)).1, Sys.same_of_key hk ((hk' (by omega)).2.2 e5 k e6)⟩
  have hvals : v = -1 ∨ v = (cfgOf p).nolb ∨ (∃ f ∈ F, From (cfgOf p) S f v) ∨ Fragment q ∧ (Tier (cfgOf p) S v ∨ ∃ q', (q', v) ∈ past ∧ Fragment q' ∧ SameDatagram q q') := by
    rcases hcases with rfl | rfl | ⟨fw, d, own, rfl, hfr, e, h1, h2⟩ | ⟨fw, rfl | ⟨k, rfl⟩, hfrom⟩ | ⟨k, rfl, hfr, hk⟩
    · cases hfin
      exact .inl rfl
    · cases hfin
      exact .inr (.inl hcc.2.2)
    · cases hfin
      obtain ⟨_, j, lb', g1, g2, g3, g4⟩ := htier d own e
      refine .inr (.inr (.inr ⟨hfr, .inl ⟨j, lb', g1, g2, ?_, ?_⟩⟩))
      · rw [← g3]; exact h1
      · rw [← g4]; exact h2
    · cases hfin
      exact .inr (.inr (.inl hfrom))
    · obtain ⟨ft'', v', out, e1, _, e2⟩ := finish_first hfi a (by show t0 ≤ x.now; omega) k fw
      rw [e1] at hfin
      cases hfin
      rcases e2 with ⟨_, rfl⟩ | ⟨_, rfl⟩
      · exact .inr (.inr (.inl hfrom))
      · exact .inl rfl
    · rcases hlater k haa with h | h
      · exact .inl h
      · exact .inr (.inr (.inr ⟨hfr, .inr (hpast k hk h)⟩))
  have hrange : -2147483648 ≤ v ∧ v < 2147483648 := by
    rcases hvals with rfl | rfl | ⟨f, _, lb', e, h1, h2⟩ | ⟨_, ⟨n, lb', _, e, h1, _⟩ | ⟨q', h1, _, _⟩⟩
    · omega
    · exact i.nolb
    · by_cases hem : lb'.targets = ∅
      · rw [h2 hem]; exact i.nt
      · have := i.small _ _ e v (h1 hem); omega
    · have := i.small _ _ e v h1; omega
    · exact i.range _ _ h1
  have hhand : handler c (env nm w) x (p.ft, p.srv.st) q.proto q.data q.data.length = .ok ((ft', st'), v) := by
    unfold handler
    dsimp only
    rw [List.take_length, hact2, Res.ok_bind]
    dsimp only
    show (finish p.ft a act >>= _) = _
    rw [hfin]
    rfl
  obtain ⟨vd, hq, hans⟩ := Nfq.queueCb_carries (handler c (env nm w) x) (p.ft, p.srv.st) (ft', st') m q v hm hhand hrange.1 hrange.2
  obtain ⟨o, ho, hreads⟩ := Sys.encode_one hp hm hans hrange.2
  have hflow : ∀ f, FlowOf 0 q f → Decided nm w p.s p.srv.st q f v := by
    intro f hf
    obtain ⟨r, hr, hdec⟩ := flow_decided hcc hinv (rel_encap i.rel) hf hu hact2
    subst hr
    cases hfin
    exact hdec
  refine ⟨{ p with ft := ft', srv := { p.srv with st := st' } }, o, v, ?_, rfl, hreads, hvals, ?_, ?_⟩
  · unfold packet
    rw [hc]
    dsimp only
    rw [objects_there i.has i.rel hinv, if_neg (by decide), hq, Res.ok_bind]
    dsimp only
    rw [ho, Res.ok_bind, if_neg (by decide)]
    rfl
  · intro f hdr hf hd
    refine ⟨decided_chosen i.has i.rel hinv hf hd (hflow f hf), ?_⟩
    intro q' r' hdr' hm' hf' hd' hsame
    exact decided_same i.rel hf hf' hd hd' hsame (hflow f hf) (i.same q' r' f hm' hf')
  · refine ⟨i.has, i.small, sinv_same i.srv hfs hi', rel_same i.rel hb hinv hi' hfs, i.nt, i.nolb, i.tier, ?_, ?_, ?_⟩
    · intro q' r' hm'
      rcases List.mem_cons.1 hm' with e | hm'
      · cases e; exact hrange
      · exact i.range q' r' hm'
    · refine ⟨t', h ++ [(a, v)], ht', hfi', hor', ?_⟩
      intro b u hb
      rcases List.mem_append.1 hb with hb | hb
      · obtain ⟨q', g1, g2⟩ := hh b u hb
        exact ⟨q', List.mem_cons_of_mem _ g1, g2⟩
      · rw [List.mem_singleton] at hb
        cases hb
        exact ⟨q, List.mem_cons_self, rfl, rfl⟩
    · intro q' r' f hm' hf'
      refine decided_back (e := env nm w) ?_ hb hinv hi' hfs
      rcases List.mem_cons.1 hm' with e | hm'
      · cases e
        exact hflow f hf'
      · exact i.same q' r' f hm' hf'

/-! ### Lines -/

theorem apart_sys {c : Cfg} {F : List Spec.FSys.Flow} {l : Line} (h : Apart c F l) {k : Str} (hk : (∃ f ∈ F, k = f.shm) ∨ c.lbshm = some k) (a b : _) : Spec.Sys.Apart ⟨k, c.lbshm, a, b⟩ l := by
  have hne : ∀ n, (∀ f ∈ F, f.shm ≠ n) ∧ c.lbshm ≠ some n → n ≠ k := by
    rintro n ⟨h1, h2⟩ rfl
    rcases hk with ⟨f, hf, e⟩ | hk
    · exact h1 f hf e.symm
    · exact h2 hk
  cases l with
  | init n own M N => exact ⟨hne n h, h.2⟩
  | delete n => exact ⟨hne n h, h.2⟩
  | activate n ms => trivial
  | deactivate n ms => trivial

theorem not_touched {nm : Str → Option Str} {rnd : Nat → Nat} {w w' : Session.Store} {S : Lbs} {F : List Spec.FSys.Flow} {t : List Char} (p : Proc) (hr : Rel nm S F p.srv.st) (hi : FlowLb.Inv ⟨p.srv.st, []⟩) (l : Line) (hn : nm l.shm = some l.shm)
    (hg : Apart (cfgOf p) F l) (h : Session.line nm rnd w l.argv = .ok (w', t)) : touched l.argv w w' p = false := by
  have key : ∀ k, (∃ f ∈ F, k = f.shm) ∨ p.lbshm = some k → ((decide (l.argv.head? = some "init".toList) || decide (l.argv.head? = some "delete".toList)) = false ∨ w' k = w k) := by
    intro k hk
    have h1 := Sys.not_touched (c := ⟨k, p.lbshm, 0, 0⟩) ⟨p.s, k, p.lbshm, p.ft⟩ l hn rfl rfl (apart_sys (c := cfgOf p) hg hk 0 0) h
    unfold Sys.touched at h1
    rcases Bool.and_eq_false_iff.1 h1 with h2 | h2
    · exact .inl h2
    · obtain ⟨h3, _⟩ := Bool.or_eq_false_iff.1 h2
      have h3 := of_decide_eq_false h3
      exact .inr (Decidable.of_not_not h3)
  unfold touched
  cases hh : (decide (l.argv.head? = some "init".toList) || decide (l.argv.head? = some "delete".toList)) with
  | false => rfl
  | true =>
    rw [hh] at key
    have key' : ∀ k, (∃ f ∈ F, k = f.shm) ∨ p.lbshm = some k → w' k = w k := fun k hk => (key k hk).resolve_left (by decide)
    rw [Bool.true_and, Bool.or_eq_false_iff]
    constructor
    · rw [Bool.eq_false_iff]
      intro ha
      obtain ⟨k, hk, hw⟩ := List.any_eq_true.1 ha
      obtain ⟨f, hf, e, _⟩ := objects_of hr hi hk
      exact of_decide_eq_true hw (key' k (.inl ⟨f, hf, e⟩))
    · cases hj : p.lbshm with
      | none => rfl
      | some j =>
        dsimp only
        exact decide_eq_false (fun hw => hw (key' j (.inr hj)))

theorem line_inv {nm : Str → Option Str} {N MB MF T : Nat} {w w' : Session.Store} {p : Proc} {S : Lbs} {F : List Spec.FSys.Flow} {past recent : List (Queued × Int)} {t : Nat} (i : Inv nm N MB MF T w p S F past recent t) {l : Line} (hr : l.InRange)
    (ha : Apart (cfgOf p) F l) (hw' : Has w' (l.apply S)) : Inv nm N MB MF T w' p (l.apply S) F past [] t := by
  refine ⟨hw', Sys.small_apply i.small l hr, i.srv, ⟨i.rel.fwd, i.rel.bwd, i.rel.objs, ?_⟩, i.nt, i.nolb, ?_, i.range, i.table, fun _ _ _ h => by cases h⟩
  · intro f hf
    obtain ⟨g1, g2, g3⟩ := i.rel.good f hf
    exact ⟨g1, g2, Sys.apart_keeps (apart_sys ha (.inl ⟨f, hf, rfl⟩) 0 0) (.inl rfl) g3⟩
  · intro j hj
    exact Sys.apart_keeps (apart_sys (k := j) ha (.inr hj) 0 0) (.inl rfl) (i.tier j hj)

/-! ### Requests -/

theorem set_args {f : Spec.FSys.Flow} (hf : f.Good) (lb : Nat) : FlowLb.flowArgs f.request.received.toCmd lb = ({ f.d with target := lb } : Def).args := by
  have h : (0 : Nat) = f.d.udpencap := hf.encap.symm
  have e : FlowLb.flowArgs f.request.received.toCmd lb = { ({ f.d with target := lb } : Def).args with udpencap := 0 } := rfl
  rw [e, h]
  rfl

theorem set_wf {f : Spec.FSys.Flow} (hf : f.Good) (lb : Nat) : ({ f.d with target := lb } : Def).WF := ⟨hf.wf.name, hf.wf.protocols, hf.wf.dports, hf.wf.sports, hf.wf.dsts, hf.wf.srcs, hf.wf.mtch⟩

theorem set_ok {rq : (Nat → Nat) → List Nat → List Nat} (hq : QSort rq) {fq : List Flow.Flow → List Flow.Flow} (hfq : Sorts fq) {nm : Str → Option Str} {N MB MF T : Nat} {w : Session.Store} {p : Proc} {S : Lbs} {F : List Spec.FSys.Flow}
    {past recent : List (Queued × Int)} {t : Nat} (i : Inv nm N MB MF T w p S F past recent t) {f : Spec.FSys.Flow} (hf : f.Good) (hn : nm f.shm = some f.shm) {text : Str} (hs : Remote.cmdFlowSet f.request.opts = .ok text) (cnt : Flow.Flow → Nat) :
    ∃ srv' o, Server.serve rq fq p.srv ⟨env nm w, cnt, text, false⟩ = .ok (srv', .reply o) ∧ (o = .ok ↔ S f.shm ≠ none) ∧ Inv nm N MB MF T w { p with srv := srv' } S (setFlow S F f) past [] t := by
  have hreq := Props.set_request hf.sent hs
  have hname : f.d.name.length ≤ 1000 := hf.sent.name.2
  obtain ⟨st, r, e, hi', hb, r1, r2, hcase⟩ := FlowLb.cmdSet_plain hq hfq i.srv.inv (env nm w) (c := f.request.received.toCmd) (n := f.d.name) (t := f.shm) rfl rfl hf.name (by omega) rfl (rel_encap i.rel)
    ⟨hf.dsts, hf.srcs, hf.priority, fun g hg => (i.srv.draw g hg).2⟩ (fun lb => by
      rw [set_args hf lb]
      obtain ⟨g, hg, _⟩ := Flow.build_def hq _ (set_wf hf lb)
      exact ⟨g, hg⟩)
  have hben : Srv.Benign text := by
    intro c hc
    rw [hreq] at hc
    cases hc
    refine ⟨fun _ => ⟨⟨f.d.name, f.shm, rfl, rfl, hf.name, by omega, by show (0 : Nat) < 65536; omega⟩, hf.dsts, hf.srcs, hf.priority⟩, fun h => ?_⟩
    exact absurd h (by show ¬ (some "set".toList = some "trace-set".toList); decide)
  obtain ⟨s', o, es, hsinv⟩ := Server.serve_ok hq hfq i.srv ⟨env nm w, cnt, text, false⟩ hben
  have es : Server.serve rq fq p.srv ⟨env nm w, cnt, text, false⟩ = .ok (s', o) := by
    rw [es]
    unfold Server.send
    rw [if_neg (by simp)]
    rfl
  obtain ⟨c, m, eq⟩ := Server.serve_eq rq fq p.srv ⟨env nm w, cnt, text, false⟩
  dsimp only at eq
  rw [hreq] at eq
  dsimp only at eq
  rw [Server.handle_set rfl] at eq
  unfold Server.doSet at eq
  dsimp only at eq e
  rw [e] at eq
  rw [es] at eq
  have eq : Res.ok (s', o) = Res.ok ({ { p.srv with cmd := f.request.received, mem := m } with st := st }, Server.Out.reply r) := by
    rw [eq]
    simp only [Res.ok_bind, Res.pure_eq, Server.send]
    rw [if_neg (by simp)]
    rfl
  obtain ⟨e1, e2⟩ : s' = { { p.srv with cmd := f.request.received, mem := m } with st := st } ∧ o = Server.Out.reply r := by
    injection eq with eq
    injection eq with h1 h2
    exact ⟨h1, h2⟩
  have hsi : Server.SInv ⟨s', []⟩ := hsinv (by
    rw [e2]
    rintro (h | h) <;> injection h with h
    · exact absurd h r1
    · exact absurd h r2)
  have hst : s'.st = st := by rw [e1]
  have hsome : (env nm w).shm f.shm = none ↔ S f.shm = none := env_none i.has hn
  have hrel : (r = .ok ↔ S f.shm ≠ none) ∧ Rel nm S (setFlow S F f) st := by
    rcases hcase with ⟨k1, k2, k3⟩ | ⟨k1, g, k2, k3, k4, k5, k6, l, k7, k8⟩
    · have hS := hsome.1 k3
      refine ⟨⟨fun h => absurd h k1, fun h => absurd hS h⟩, ?_⟩
      unfold setFlow
      rw [if_pos hS]
      exact rel_same i.rel hb i.srv.inv hi' k2
    · have hS : S f.shm ≠ none := by
        rcases hb.2 _ _ k7 with ⟨l0, h0, h1, _⟩ | ⟨_, h1⟩
        · obtain ⟨_, _, _, f0, _, _, h2, _, h3⟩ := rel_lb i.rel i.srv.inv h0
          rw [← k8, ← h1, h2]
          exact h3
        · rw [k8] at h1
          intro hn'
          rw [hsome.2 hn'] at h1
          cases h1
      refine ⟨⟨fun _ => hS, fun _ => k1⟩, ?_⟩
      refine rel_after i.rel hb i.srv.inv hi' ⟨hf, hn, hS⟩ k2 ⟨?_, k5, l, k7, k8⟩
      rw [set_args hf] at k3
      obtain ⟨g', h1, h2⟩ := Flow.build_def hq _ (set_wf hf g.userRef)
      have : Res.ok (some g) = Res.ok (some g') := k3.symm.trans h1
      injection this with this
      injection this with this
      subst this
      exact h2
  refine ⟨s', r, by rw [es, e2], hrel.1, i.has, i.small, hsi, by show Rel nm S _ s'.st; rw [hst]; exact hrel.2, i.nt, i.nolb, i.tier, i.range, i.table, fun _ _ _ h => by cases h⟩

theorem delete_ok {rq : (Nat → Nat) → List Nat → List Nat} (hq : QSort rq) {fq : List Flow.Flow → List Flow.Flow} (hfq : Sorts fq) {nm : Str → Option Str} {N MB MF T : Nat} {w : Session.Store} {p : Proc} {S : Lbs} {F : List Spec.FSys.Flow}
    {past recent : List (Queued × Int)} {t : Nat} (i : Inv nm N MB MF T w p S F past recent t) {name : Str} (hc : Rem.Clean name) (hl : name.length ≤ 1010) (cnt : Flow.Flow → Nat) :
    ∃ srv', Server.serve rq fq p.srv ⟨env nm w, cnt, Remote.deleteText name, false⟩ = .ok (srv', .reply .ok) ∧ Inv nm N MB MF T w { p with srv := srv' } S (deleteFlow F name) past [] t := by
  have hreq : Srv.request (Remote.deleteText name) = some { Remote.FlowCmd.zero with action := some "delete".toList, name := some name } := by
    obtain ⟨m, e⟩ := (Props.C51_others name hc hl ⟨0, 0⟩).1
    unfold Srv.request
    rw [e]
    simp
  obtain ⟨st, e, hi', hb, _, hfl⟩ := FlowLb.cmdDelete_plain i.srv.inv (env nm w) name (rel_encap i.rel)
  have hben : Srv.Benign (Remote.deleteText name) := by
    intro c hc
    rw [hreq] at hc
    cases hc
    exact ⟨fun h => absurd h (by show ¬ (some "delete".toList = some "set".toList); decide), fun h => absurd h (by show ¬ (some "delete".toList = some "trace-set".toList); decide)⟩
  obtain ⟨s', o, es, hsinv⟩ := Server.serve_ok hq hfq i.srv ⟨env nm w, cnt, Remote.deleteText name, false⟩ hben
  have es : Server.serve rq fq p.srv ⟨env nm w, cnt, Remote.deleteText name, false⟩ = .ok (s', o) := by
    rw [es]
    unfold Server.send
    rw [if_neg (by simp)]
    rfl
  obtain ⟨c, m, eq⟩ := Server.serve_eq rq fq p.srv ⟨env nm w, cnt, Remote.deleteText name, false⟩
  dsimp only at eq
  rw [hreq] at eq
  dsimp only at eq
  rw [Server.handle_delete rfl] at eq
  unfold Server.doDelete at eq
  dsimp only at eq e
  rw [e] at eq
  rw [es] at eq
  have eq : Res.ok (s', o) = Res.ok ({ { p.srv with cmd := { Remote.FlowCmd.zero with action := some "delete".toList, name := some name }, mem := m } with st := st }, Server.Out.reply .ok) := by
    rw [eq]
    simp only [Res.ok_bind, Res.pure_eq, Server.send]
    rw [if_neg (by simp)]
    rfl
  obtain ⟨e1, e2⟩ : s' = { { p.srv with cmd := { Remote.FlowCmd.zero with action := some "delete".toList, name := some name }, mem := m } with st := st } ∧ o = Server.Out.reply .ok := by
    injection eq with eq
    injection eq with h1 h2
    exact ⟨h1, h2⟩
  have hsi : Server.SInv ⟨s', []⟩ := hsinv (by
    rw [e2]
    rintro (h | h) <;> injection h with h <;> cases h)
  have hst : s'.st = st := by rw [e1]
  refine ⟨s', by rw [es, e2], i.has, i.small, hsi, ?_, i.nt, i.nolb, i.tier, i.range, i.table, fun _ _ _ h => by cases h⟩
  show Rel nm S _ s'.st
  rw [hst]
  exact rel_delete i.rel hb i.srv.inv hi' hfl

theorem other_ok {rq : (Nat → Nat) → List Nat → List Nat} (hq : QSort rq) {fq : List Flow.Flow → List Flow.Flow} (hfq : Sorts fq) {nm : Str → Option Str} {N MB MF T : Nat} {w : Session.Store} {p : Proc} {S : Lbs} {F : List Spec.FSys.Flow}
    {past recent : List (Queued × Int)} {t : Nat} (i : Inv nm N MB MF T w p S F past recent t) {bytes : Str} (hh : Harmless bytes) (cnt : Flow.Flow → Nat) :
    ∃ srv' o, Server.serve rq fq p.srv ⟨env nm w, cnt, bytes, false⟩ = .ok (srv', o) ∧ Inv nm N MB MF T w { p with srv := srv' } S F past recent t := by
  have hben : Srv.Benign bytes := fun c hc => ⟨fun h => absurd h (hh c hc).1, (hh c hc).2.2⟩
  obtain ⟨s', o, es, hsinv⟩ := Server.serve_ok hq hfq i.srv ⟨env nm w, cnt, bytes, false⟩ hben
  have es : Server.serve rq fq p.srv ⟨env nm w, cnt, bytes, false⟩ = .ok (s', o) := by
    rw [es]
    unfold Server.send
    rw [if_neg (by simp)]
    rfl
  have key : s'.st = p.srv.st ∧ ((o = .reply .sctp ∨ o = .reply .define) → False) := by
    obtain ⟨c, m, ⟨_, e1, e2⟩ | ⟨x, e1, e2⟩⟩ := Server.serve_cases es
    · rw [e1, e2]
      exact ⟨rfl, fun h => by rcases h with h | h <;> cases h⟩
    · obtain ⟨h1, _, _, h4⟩ := Server.quiet_frame e2 (hh x e1).1 (hh x e1).2.1
      exact ⟨h1, fun h => by rcases h with h | h <;> exact h4 _ h⟩
  refine ⟨s', o, es, i.has, i.small, hsinv (fun h => (key.2 h).elim), ?_, i.nt, i.nolb, i.tier, i.range, i.table, ?_⟩
  · show Rel nm S F s'.st
    rw [key.1]
    exact i.rel
  · show ∀ q r f, _ → _ → Decided nm w p.s s'.st q f r
    rw [key.1]
    exact i.same

/-- All events. -/
theorem run_right {rq : (Nat → Nat) → List Nat → List Nat} (hq : QSort rq) {fq : List Flow.Flow → List Flow.Flow} (hfq : Sorts fq) {N MB MF T page : Nat} (hp : 40 ≤ page) {nm : Str → Option Str} {rnd : Nat → Nat} :
    ∀ (evs : List Spec.FSys.Ev) {w : Session.Store} {p : Proc} {S : Lbs} {F : List Spec.FSys.Flow} {past recent : List (Queued × Int)} {t : Nat},
    Inv nm N MB MF T w p S F past recent t → Good nm (cfgOf p) S F t evs →
    ∃ w' p' outs, run rq fq nm rnd page w p (evs.map Ev.event) = .ok (w', p', outs) ∧ Right (cfgOf p) S F past recent evs outs
  | [], w, p, S, F, past, recent, t, _, _ => ⟨w, p, [], rfl, rfl⟩
  | .line l :: evs, w, p, S, F, past, recent, t, i, hg => by
    obtain ⟨hn, hr, ha, hg⟩ := hg
    rcases line_does (rnd := rnd) i.has l hn hr with ⟨w1, t1, e, h', _⟩ | ⟨e, h', _⟩
    · obtain ⟨w2, p2, outs, e2, r2⟩ := run_right hq hfq hp (rnd := rnd) evs (line_inv i hr ha h') hg
      refine ⟨w2, p2, outs, ?_, r2⟩
      have hs : step rq fq nm rnd page w p (Ev.line l).event = .ok (w1, p, []) := by
        simp only [Ev.event, step, e, not_touched p i.rel i.srv.inv l hn ha e, Bool.false_eq_true, if_false]
      rw [List.map_cons, run, hs, Res.ok_bind]
      dsimp only
      rw [e2]
      rfl
    · obtain ⟨w2, p2, outs, e2, r2⟩ := run_right hq hfq hp (rnd := rnd) evs (line_inv i hr ha h') hg
      refine ⟨w2, p2, outs, ?_, r2⟩
      have hs : step rq fq nm rnd page w p (Ev.line l).event = .ok (w, p, []) := by
        simp only [Ev.event, step, e]
      rw [List.map_cons, run, hs, Res.ok_bind]
      dsimp only
      rw [e2]
      rfl
  | .set f text cnt :: evs, w, p, S, F, past, recent, t, i, hg => by
    obtain ⟨hf, hn, hs, hg⟩ := hg
    obtain ⟨srv', o, e, ho, i'⟩ := set_ok hq hfq i hf hn hs cnt
    obtain ⟨w2, p2, outs, e2, r2⟩ := run_right hq hfq hp (rnd := rnd) evs i' hg
    refine ⟨w2, p2, .client (.reply o) :: outs, ?_, o, outs, rfl, ho, r2⟩
    have hs : step rq fq nm rnd page w p (Ev.set f text cnt).event = .ok (w, { p with srv := srv' }, [.client (.reply o)]) := by
      simp only [Ev.event, step, e, Res.ok_bind, Res.pure_eq]
    rw [List.map_cons, run, hs, Res.ok_bind]
    dsimp only
    rw [e2]
    rfl
  | .delete name cnt :: evs, w, p, S, F, past, recent, t, i, hg => by
    obtain ⟨hc, hl, hg⟩ := hg
    obtain ⟨srv', e, i'⟩ := delete_ok hq hfq i hc hl cnt
    obtain ⟨w2, p2, outs, e2, r2⟩ := run_right hq hfq hp (rnd := rnd) evs i' hg
    refine ⟨w2, p2, .client (.reply .ok) :: outs, ?_, outs, rfl, r2⟩
    have hs : step rq fq nm rnd page w p (Ev.delete name cnt).event = .ok (w, { p with srv := srv' }, [.client (.reply .ok)]) := by
      simp only [Ev.event, step, e, Res.ok_bind, Res.pure_eq]
    rw [List.map_cons, run, hs, Res.ok_bind]
    dsimp only
    rw [e2]
    rfl
  | .other bytes cnt :: evs, w, p, S, F, past, recent, t, i, hg => by
    obtain ⟨hh, hg⟩ := hg
    obtain ⟨srv', o, e, i'⟩ := other_ok hq hfq i hh cnt
    obtain ⟨w2, p2, outs, e2, r2⟩ := run_right hq hfq hp (rnd := rnd) evs i' hg
    refine ⟨w2, p2, .client o :: outs, ?_, o, outs, rfl, r2⟩
    have hs : step rq fq nm rnd page w p (Ev.other bytes cnt).event = .ok (w, { p with srv := srv' }, [.client o]) := by
      simp only [Ev.event, step, e, Res.ok_bind, Res.pure_eq]
    rw [List.map_cons, run, hs, Res.ok_bind]
    dsimp only
    rw [e2]
    rfl
  | .packet q m x :: evs, w, p, S, F, past, recent, t, i, hg => by
    obtain ⟨hm, hw, hu, ht, h64, hg⟩ := hg
    obtain ⟨p', o, r, e, hcfg, h1, h2, h3, i'⟩ := packet_ok hp i hm hw hu ht h64
    obtain ⟨w2, p2, outs, e2, r2⟩ := run_right hq hfq hp (rnd := rnd) evs i' (by rw [hcfg]; exact hg)
    rw [hcfg] at r2
    refine ⟨w2, p2, .kernel o :: outs, ?_, o, outs, r, rfl, h1, h2, h3, r2⟩
    have hs : step rq fq nm rnd page w p (Ev.packet q m x).event = .ok (w, p', [.kernel o]) := by
      simp only [Ev.event, step, e, Res.ok_bind, Res.pure_eq, List.map_cons, List.map_nil]
    rw [List.map_cons, run, hs, Res.ok_bind]
    dsimp only
    rw [e2]
    rfl

/-! ### The start -/

open Nfqlb.Spec.Cmd

theorem good_flowlb : GoodNames flowLbOpts := by unfold GoodNames; decide +kernel

/-- The options of a launch. -/
def launchItems (l : Launch) : List Item :=
  (l.lbshm.map (Item.eq 1)).toList ++ (l.notargets.map (fun n => Item.eq 6 (Spec.Session.dec n))).toList ++ (l.nolb.map (fun n => Item.eq 7 (Spec.Session.dec n))).toList ++ [.eq 9 (Spec.Session.dec l.queue)]

theorem launch_argv (l : Launch) : l.argv = "flowlb".toList :: ((launchItems l).map (Item.render flowLbOpts)).flatten := by
  obtain ⟨u, n, m, q⟩ := l
  cases u <;> cases n <;> cases m <;> rfl

theorem launch_items (l : Launch) (it : Item) (h : it ∈ launchItems l) : it.WF flowLbOpts ∧ ∃ i a, it.got = some (.opt i (some a)) ∧ i ∈ [1, 6, 7, 9] := by
  obtain ⟨u, n, m, q⟩ := l
  have key : ∀ i ∈ [1, 6, 7, 9], ∀ a, (Item.eq i a).WF flowLbOpts ∧ ∃ j b, (Item.eq i a).got = some (.opt j (some b)) ∧ j ∈ [1, 6, 7, 9] := by
    intro i hi a
    refine ⟨?_, i, a, rfl, hi⟩
    simp only [List.mem_cons, List.not_mem_nil, or_false] at hi
    rcases hi with rfl | rfl | rfl | rfl <;> exact ⟨_, rfl, rfl⟩
  simp only [launchItems, List.mem_append, Option.mem_toList, Option.map_eq_some_iff, List.mem_singleton] at h
  rcases h with ((⟨a, _, rfl⟩ | ⟨a, _, rfl⟩) | ⟨a, _, rfl⟩) | rfl <;> exact key _ (by decide) _

theorem parse_launch (l : Launch) : ∃ vars k, parseOrDie flowLbOpts l.argv = .ok (vars, k) ∧ valueOf vars "lbshm".toList = l.lbshm ∧
    valueOf vars "notargets_fwmark".toList = some ((l.notargets.map Spec.Session.dec).getD "-1".toList) ∧ valueOf vars "nolb_fwmark".toList = some ((l.nolb.map Spec.Session.dec).getD "-1".toList) ∧
    valueOf vars "queue".toList = some (Spec.Session.dec l.queue) ∧ valueOf vars "mtu".toList = some "1500".toList ∧ valueOf vars "tun".toList = none ∧ valueOf vars "reassembler".toList = some "0".toList ∧
    valueOf vars "hash_mode".toList = some "1".toList ∧ valueOf vars "qlength".toList = some "1024".toList ∧ valueOf vars "ft_size".toList = some "500".toList ∧ valueOf vars "ft_buckets".toList = some "500".toList ∧
    valueOf vars "ft_ttl".toList = some "200".toList ∧ valueOf vars "promiscuous_ping".toList = some "no".toList := by
  obtain ⟨vars, k, h1, h2, -⟩ := parse_items flowLbOpts (by decide) good_flowlb (launchItems l) (fun it h => (launch_items l it h).1)
    (by
      intro i a h
      obtain ⟨it, hit, e⟩ := List.mem_filterMap.1 h
      obtain ⟨_, j, b, e', hj⟩ := launch_items l it hit
      rw [e'] at e
      cases e
      simp only [List.mem_cons, List.not_mem_nil, or_false] at hj
      rcases hj with rfl | rfl | rfl | rfl <;> decide)
    (by obtain ⟨u, n, m, q⟩ := l; cases u <;> cases n <;> cases m <;> rfl) "flowlb".toList
  rw [← launch_argv] at h1
  obtain ⟨u, n, m, q⟩ := l
  refine ⟨vars, k, h1, ?_⟩
  have v1 := h2 1 (row "lbshm" none) rfl
  have v6 := h2 6 (row "notargets_fwmark" (some "-1")) rfl
  have v7 := h2 7 (row "nolb_fwmark" (some "-1")) rfl
  have v9 := h2 9 (row "queue" (some "2")) rfl
  have v2 := h2 2 (row "mtu" (some "1500")) rfl
  have v3 := h2 3 (row "tun" none) rfl
  have v4 := h2 4 (row "reassembler" (some "0")) rfl
  have v8 := h2 8 (row "hash_mode" (some "1")) rfl
  have va := h2 10 (row "qlength" (some "1024")) rfl
  have vb := h2 12 (row "ft_size" (some "500")) rfl
  have vc := h2 13 (row "ft_buckets" (some "500")) rfl
  have vd := h2 15 (row "ft_ttl" (some "200")) rfl
  have v5 := h2 5 (row "promiscuous_ping" (some "no")) rfl
  cases u <;> cases n <;> cases m <;> exact ⟨v1, v6, v7, v9, v2, v3, v4, v8, va, vb, vc, vd, v5⟩

theorem mark_num {vars : List Opt} {name : String} {o : Option Nat} (h : valueOf vars name.toList = some ((o.map Spec.Session.dec).getD "-1".toList)) (hn : ∀ n, o = some n → n ≤ 2147483647) : Start.num vars name = .ok ((o.map Int.ofNat).getD (-1)) := by
  unfold Start.num
  rw [h]
  cases o with
  | none => exact congrArg Res.ok (by decide +kernel : Remote.atoi "-1".toList = -1)
  | some n => exact congrArg Res.ok (atoi_dec (hn n rfl))

theorem launch_start {e : Start.Env} (hm : Sys.Mem e) (l : Launch) {vars : List Opt} (hn : ∀ n, l.notargets = some n → n ≤ 2147483647) (hl : ∀ n, l.nolb = some n → n ≤ 2147483647) (hq : l.queue ≤ 65535)
    (h7 : valueOf vars "notargets_fwmark".toList = some ((l.notargets.map Spec.Session.dec).getD "-1".toList)) (h4 : valueOf vars "nolb_fwmark".toList = some ((l.nolb.map Spec.Session.dec).getD "-1".toList))
    (h9 : valueOf vars "queue".toList = some (Spec.Session.dec l.queue)) (h1 : valueOf vars "mtu".toList = some "1500".toList) (ht : valueOf vars "tun".toList = none)
    (h3 : valueOf vars "reassembler".toList = some "0".toList) (h8 : valueOf vars "hash_mode".toList = some "1".toList) (ha : valueOf vars "qlength".toList = some "1024".toList)
    (hb : valueOf vars "ft_size".toList = some "500".toList) (hc : valueOf vars "ft_buckets".toList = some "500".toList) (hd : valueOf vars "ft_ttl".toList = some "200".toList)
    (hping : valueOf vars "promiscuous_ping".toList = some "no".toList) :
    Start.start true e vars = .ok ⟨l.cfg.notargets, l.cfg.nolb, 0, 1, false, 1500, none, 500, 500, 0, 200, none, 1024, [l.queue]⟩ := by
  have k7 : Start.num vars "notargets_fwmark" = .ok l.cfg.notargets := mark_num h7 hn
  have k4 : Start.numIf true vars "nolb_fwmark" (-1) = .ok l.cfg.nolb := mark_num h4 hl
  have k1 : Start.num vars "mtu" = .ok 1500 := by unfold Start.num; rw [h1]; rfl
  have k3 : Start.num vars "reassembler" = .ok 0 := by unfold Start.num; rw [h3]; rfl
  have k8 : Start.num vars "hash_mode" = .ok 1 := by unfold Start.num; rw [h8]; rfl
  have ka : Start.num vars "qlength" = .ok 1024 := by unfold Start.num; rw [ha]; rfl
  have kb : Start.num vars "ft_size" = .ok 500 := by unfold Start.num; rw [hb]; rfl
  have kc : Start.num vars "ft_buckets" = .ok 500 := by unfold Start.num; rw [hc]; rfl
  have kd : Start.num vars "ft_ttl" = .ok 200 := by unfold Start.num; rw [hd]; rfl
  have kq : Start.queues e.thread (Spec.Session.dec l.queue) = .ok [l.queue] := by
    unfold Start.queues
    have : ':' ∉ Spec.Session.dec l.queue := Start.colon_not_digits l.queue
    rw [if_neg this, atoi_dec (by omega)]
    refine congrArg Res.ok ?_
    congr 1
    omega
  unfold Start.start
  rw [k7, Res.ok_bind, k4, Res.ok_bind, k1, Res.ok_bind, if_neg (by decide)]
  have k4' : Start.numIf (!true) vars "sctp_encap" 0 = .ok 0 := rfl
  rw [k4', Res.ok_bind, k8, Res.ok_bind, ht]
  have ko : Start.openTun e.dev none 1500 = .ok none := rfl
  rw [ko, Res.ok_bind, kb, Res.ok_bind, kc, Res.ok_bind]
  have kf : Start.numIf (none : Option Nat).isSome vars "ft_frag" 0 = .ok 0 := rfl
  rw [kf, Res.ok_bind, kd, Res.ok_bind, k3, Res.ok_bind, ka, Res.ok_bind, hping]
  dsimp only
  rw [Start.makePools_ok, Res.ok_bind, h9]
  · dsimp only
    rw [kq, Res.ok_bind]
    rfl
  · have := hm.1
    show 500 * _ < _
    omega
  · show 0 * _ < _
    omega
  · have := hm.2
    show (500 + 500) * _ < _
    omega
  · intro n hn
    cases hn

/-- The program starts. -/
theorem boot_ok {nm : Str → Option Str} {e : Start.Env} (hm : Sys.Mem e) {w : Session.Store} {S : Lbs} (h : Has w S) {l : Launch} (hl : l.Good nm S) :
    boot nm e w l.argv = .ok ⟨⟨l.cfg.notargets, l.cfg.nolb, 0, 1, false, 1500, none, 500, 500, 0, 200, none, 1024, [l.queue]⟩, l.lbshm, Frag.create 500 500 0 1500 200 false, Server.start false⟩ := by
  obtain ⟨hu, hn, hnl, hq⟩ := hl
  obtain ⟨vars, k, h1, h6, h7, h4, h9, hmtu, ht, h3, h8, ha, hb, hc, hd, hping⟩ := parse_launch l
  have hs := launch_start hm l hn hnl hq h7 h4 h9 hmtu ht h3 h8 ha hb hc hd hping
  unfold boot
  rw [h1, Res.ok_bind]
  dsimp only
  rw [h6]
  cases hj : l.lbshm with
  | none =>
    dsimp only
    rw [hs]
    rfl
  | some u =>
    obtain ⟨u1, u2⟩ := hu u hj
    dsimp only
    rw [Sys.mapObj_ok h u1 u2, Res.ok_bind, hs]
    rfl

/-- Whatever the options are: what is so after the start. -/
theorem boot_inv {rq : (Nat → Nat) → List Nat → List Nat} (hq : QSort rq) {fq : List Flow.Flow → List Flow.Flow} (hfq : Sorts fq) {nm : Str → Option Str} {e : Start.Env} {w : Session.Store} {S : Lbs} (h : Has w S) (hsm : Small S) {argv : List Str} {p : Proc}
    (hb : boot nm e w argv = .ok p) (h0 : 0 < p.s.hsize) : ∃ N MB MF T, Inv nm N MB MF T w p S [] [] [] 0 := by
  have hmap : ∀ {n k : Str}, Sys.mapObj nm w n = .ok k → S k ≠ none := by
    intro n k hk
    unfold Sys.mapObj at hk
    split at hk
    · cases hk
    · split at hk
      · cases hk
      · rename_i k' _ hne
        cases hk
        rcases h k with ⟨e, _⟩ | ⟨s, lb, _, e, _⟩
        · exact absurd e hne
        · rw [e]; simp
  have hst : ∀ {vars : List Opt} {s : Start.Started}, Start.start true e vars = .ok s → (-2147483648 ≤ s.notargets ∧ s.notargets < 2147483648) ∧ -2147483648 ≤ s.nolb ∧ s.nolb < 2147483648 := by
    intro vars s hs
    obtain ⟨nt, nl, _, _, _, _, _, _, _, _, _, _, _, hnt, hnl, _, _, _, _, _, _, _, _, _, _, _, _, _, _, e1⟩ := Start.start_ok hs
    obtain ⟨t, _, rfl⟩ := Start.num_ok hnt
    obtain ⟨t', _, rfl⟩ := Start.num_ok (show Start.num vars "nolb_fwmark" = .ok nl from hnl)
    have := Start.atoi_range t
    have := Start.atoi_range t'
    rw [e1]
    dsimp only
    omega
  have fin : ∀ (s : Start.Started) (j : Option Str), 0 < s.hsize → (-2147483648 ≤ s.notargets ∧ s.notargets < 2147483648) ∧ -2147483648 ≤ s.nolb ∧ s.nolb < 2147483648 → (∀ u, j = some u → S u ≠ none) →
      ∃ N MB MF T, Inv nm N MB MF T w ⟨s, j, s.table, Server.start s.ping⟩ S [] [] [] 0 := by
    intro s j hz hn hj
    have hsinv : Server.SInv ⟨Server.start s.ping, []⟩ := Server.hist_sinv hq hfq (conf := ⟨0, 0, 0, none⟩) (.start s.ping)
    refine ⟨_, _, _, _, h, hsm, hsinv, ⟨(fun _ h => by cases h), (fun _ h => by cases h), (fun _ _ h => by cases h), (fun _ h => by cases h)⟩, hn.1, hn.2, hj, (fun _ _ h => by cases h),
      ⟨0, [], Nat.le_refl _, Frag.create_finv hz, ?_, (fun _ _ h => by cases h)⟩, (fun _ _ _ h => by cases h)⟩
    intro k e hv _
    have hv' : Frag.view (Frag.create s.hsize s.buckets s.frags s.mtu s.ttl s.reass.isSome) 0 k = some e := hv
    rw [Frag.create_view hz] at hv'
    cases hv'
  unfold boot at hb
  obtain ⟨⟨vars, k⟩, _, hb⟩ := Server.bind_ok hb
  dsimp only at hb
  split at hb
  · obtain ⟨s, hs, hb⟩ := Server.bind_ok hb
    cases hb
    exact fin s none h0 (hst hs) (fun _ h => by cases h)
  · obtain ⟨j, hj, hb⟩ := Server.bind_ok hb
    obtain ⟨s, hs, hb⟩ := Server.bind_ok hb
    cases hb
    exact fin s (some j) h0 (hst hs) (fun u h => by cases h; exact hmap hj)

end Nfqlb.FSys
