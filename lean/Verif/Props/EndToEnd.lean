import Verif.Proof.EndToEnd
import Verif.Props.Lb

/-! C49: the packet handlers of `lb` and `flowlb` with the fragment table. -/

set_option autoImplicit false

namespace Nfqlb.Props

open Nfqlb Nfqlb.E2E Nfqlb.Spec.E2E
open Nfqlb.Spec (V4 V6 L4 FragHdr ExtHdr fragKey flowKey)

/-- C49 for every history of packets, handled by `lb` or `flowlb` with any configuration at any time: all calls return. A later fragment that the handler passes to the table (`IsLater`) and that is forwarded
gets the mark of a first fragment with the same key that came before, that was forwarded, and after which every other first fragment with this key was dropped.
Missing: that keys are equal only for fragments of one datagram, see `C49_ipv4_partial` and `C49_ipv6_partial`; it is false behind IPv6 extension headers (`C49_violated`). -/
theorem C49_first_before_partial (hsize maxBuckets maxFragments mtu t : Nat) (reass : Bool) (hpos : 0 < hsize) (as : List Arrival) (ht : Timed 0 as) (hd : ∀ a ∈ as, ∃ act, action a = .ok act) :
    ∃ ft vs, run (Frag.create hsize maxBuckets maxFragments mtu t reass) as = .ok (ft, vs) ∧ vs.length = as.length ∧
      ∀ pre a v post, as.zip vs = pre ++ (a, v) :: post → ∀ k, IsLater a k → 0 ≤ v →
        ∃ h1 f h2, pre = h1 ++ (f, v) :: h2 ∧ IsFirst f k v ∧ ∀ g w fw', (g, w) ∈ h2 → IsFirst g k fw' → w = -1 := by
  have h0 : Orig [] (Frag.create hsize maxBuckets maxFragments mtu t reass) 0 := by
    intro k e hv
    rw [Frag.create_view hpos] at hv
    cases hv
  obtain ⟨ft, vs, _, e, hl, -⟩ := run_inv as (Frag.create_finv hpos) h0 ht hd
  refine ⟨ft, vs, e, hl, ?_⟩
  intro pre a v post hz k hk hv
  -- the history up to `a`
  have has : as = pre.map Prod.fst ++ a :: post.map Prod.fst := by
    have := congrArg (List.map Prod.fst) hz
    rw [List.map_fst_zip (by omega)] at this
    simpa using this
  have hvs : vs = pre.map Prod.snd ++ v :: post.map Prod.snd := by
    have := congrArg (List.map Prod.snd) hz
    rw [List.map_snd_zip (by omega)] at this
    simpa using this
  have htp : Timed 0 (pre.map Prod.fst) ∧ ∀ x ∈ pre.map Prod.fst, ∃ act, action x = .ok act := by
    refine ⟨?_, fun x hx => hd x (by rw [has]; simp [-List.mem_map, hx])⟩
    rw [has] at ht
    have key : ∀ (l m : List Arrival) (t : Nat), Timed t (l ++ m) → Timed t l := by
      intro l
      induction l with
      | nil => intros; trivial
      | cons x l ih => rintro m t ⟨h1, h2, h3⟩; exact ⟨h1, h2, ih m _ h3⟩
    exact key _ _ _ ht
  obtain ⟨ft1, ws, t1, e1, l1, -, i1, o1, hb⟩ := run_inv (pre.map Prod.fst) (Frag.create_finv hpos) h0 htp.1 htp.2
  have hta : Timed t1 (a :: post.map Prod.fst) := hb _ (by rw [← has]; exact ht)
  obtain ⟨act, ha⟩ := hd a (by rw [has]; simp)
  obtain ⟨ft2, v2, inj, t2, e2, -, -, -, -, hr⟩ := handle_inv i1 o1 a hta.1 hta.2.1 ha
  -- they are the same
  have key : ∀ (l : List Arrival) (ft ft1 ftx : Frag.Ft) (ws vs : List Int) (r : List Arrival), E2E.run ft l = .ok (ft1, ws) → E2E.run ft (l ++ r) = .ok (ftx, vs) →
      ∃ us, vs = ws ++ us ∧ E2E.run ft1 r = .ok (ftx, us) := by
    intro l
    induction l with
    | nil => intro ft ft1 ftx ws vs r h1 h2; cases h1; exact ⟨vs, rfl, h2⟩
    | cons x l ih =>
      intro ft ft1 ftx ws vs r h1 h2
      cases hx : handle ft x with
      | ok y =>
        obtain ⟨fta, va, ia⟩ := y
        obtain ⟨ws', rfl, h1'⟩ := run_cons hx h1
        obtain ⟨vs', rfl, h2'⟩ := run_cons hx h2
        obtain ⟨us, rfl, h3⟩ := ih _ _ _ _ _ _ h1' h2'
        exact ⟨us, rfl, h3⟩
      | die => simp [E2E.run, hx] at h1
      | ub => simp [E2E.run, hx] at h1
      | hang => simp [E2E.run, hx] at h1
  rw [has] at e
  obtain ⟨us, hus, e3⟩ := key _ _ _ _ _ _ _ e1 e
  obtain ⟨us', rfl, -⟩ := run_cons e2 e3
  have hlen : ws.length = (pre.map Prod.snd).length := by rw [l1]; simp
  rw [hvs] at hus
  obtain ⟨hw, hv2⟩ := List.append_inj hus hlen.symm
  have hv2 : v = v2 := by injection hv2
  subst hv2
  rcases hr k hk with h | h
  · omega
  · rw [← hw, List.nil_append, ← List.zip_of_prod (xs := pre) rfl rfl] at h
    exact h

/-- C49, the other direction: from the moment where a first fragment is forwarded on, all later fragments with its key get its mark, and other first fragments with its key are dropped, until there
was a gap of more than the ttl or the datagram was complete. -/
theorem C49_all_partial (hsize maxBuckets maxFragments mtu t : Nat) (reass : Bool) (hpos : 0 < hsize) (pre mid : List Arrival) (f : Arrival) (k : Key) (fw : Int)
    (ht : Timed 0 (pre ++ f :: mid)) (hd : ∀ a ∈ pre ++ f :: mid, ∃ act, action a = .ok act) (hf : IsFirst f k fw) :
    ∃ ft vs ft1 v inj ft2 ws, run (Frag.create hsize maxBuckets maxFragments mtu t reass) pre = .ok (ft, vs) ∧ handle ft f = .ok (ft1, v, inj) ∧ run ft1 mid = .ok (ft2, ws) ∧ ws.length = mid.length ∧
      (v = fw ∨ v = -1) ∧ (0 ≤ v → Follows k fw (t * 1000000 % 4294967296) f.now (mid.zip ws)) := by
  have h0 : Orig [] (Frag.create hsize maxBuckets maxFragments mtu t reass) 0 := by
    intro k e hv
    rw [Frag.create_view hpos] at hv
    cases hv
  have key : ∀ (l m : List Arrival) (t : Nat), Timed t (l ++ m) → Timed t l := by
    intro l
    induction l with
    | nil => intros; trivial
    | cons x l ih => rintro m t ⟨h1, h2, h3⟩; exact ⟨h1, h2, ih m _ h3⟩
  obtain ⟨ft, vs, t1, e1, -, -, i1, o1, hb⟩ := run_inv pre (Frag.create_finv hpos) h0 (key _ _ _ ht) (fun a ha => hd a (by simp [ha]))
  obtain ⟨g1, g2, g3⟩ := hb _ ht
  obtain ⟨ft1, v, out, e2, st, hv⟩ := finish_first i1 f g1 k fw
  have e2' : handle ft f = .ok (ft1, v, out.injected) := by simp only [handle, show action f = .ok (.first k fw) from hf, Res.ok_bind, e2]
  have hdm : ∀ a ∈ mid, ∃ act, action a = .ok act := fun a ha => hd a (by simp [ha])
  have ho : ∃ h, Orig h ft1 f.now := by
    obtain ⟨ft1', v', inj', t', e', l2, l3, i', o', -⟩ := handle_inv i1 o1 f g1 g2 hf
    rw [e2'] at e'
    simp only [Res.ok.injEq, Prod.mk.injEq] at e'
    obtain ⟨rfl, rfl, rfl⟩ := e'
    exact ⟨_, orig_advance i' l3 g2 o'⟩
  obtain ⟨_, ho⟩ := ho
  obtain ⟨ft2, ws, _, e3, l3, -⟩ := run_inv mid st.inv ho g3 hdm
  refine ⟨ft, vs, ft1, v, out.injected, ft2, ws, e1, e2', e3, l3, ?_, ?_⟩
  · rcases hv with ⟨_, h⟩ | ⟨_, h⟩
    · exact .inl h
    · exact .inr h
  · intro h
    have hrc : out.rc = 0 := by
      rcases hv with ⟨h1, _⟩ | ⟨_, h1⟩
      · exact h1
      · omega
    exact follows_all k fw mid (e := ⟨f.now, .hashValid, fw, []⟩) st.inv g3 (Frag.keeps_start (Frag.view_first st hrc)) rfl rfl rfl hdm e3

/-- C49, IPv4: a later fragment that is handled here and is forwarded gets the mark of a packet that was forwarded before. If that is an IPv4 packet, it is no later fragment, and if it is a first fragment, then of the
same datagram. -/
theorem C49_ipv4_partial (hsize maxBuckets maxFragments mtu t : Nat) (reass : Bool) (hpos : 0 < hsize) (as : List Arrival) (ht : Timed 0 as) (hd : ∀ a ∈ as, ∃ act, action a = .ok act) :
    ∃ ft vs, run (Frag.create hsize maxBuckets maxFragments mtu t reass) as = .ok (ft, vs) ∧ vs.length = as.length ∧
      ∀ pre a v post, as.zip vs = pre ++ (a, v) :: post → ∀ y : V4, y.WF → y.payload ≠ [] → y.LaterFragment → a.proto = 0x0800 → a.data = y.bytes → (∀ fw, action a ≠ .ok (.verdict fw)) → 0 ≤ v →
        ∃ f k, (f, v) ∈ pre ∧ IsFirst f k v ∧ k = fragKey y.src.mapped y.dst.mapped y.ident (0, 0) ∧
          ∀ x : V4, x.WF → x.payload ≠ [] → f.proto = 0x0800 → f.data = x.bytes → ¬ x.LaterFragment ∧ (x.FirstFragment → x.src = y.src ∧ x.dst = y.dst ∧ x.ident = y.ident) := by
  obtain ⟨ft, vs, e, hl, hm⟩ := C49_first_before_partial hsize maxBuckets maxFragments mtu t reass hpos as ht hd
  refine ⟨ft, vs, e, hl, ?_⟩
  intro pre a v post hz y hy hyp hyl hpr hda hnt hv
  have hin : a ∈ as := by
    have : (a, v) ∈ as.zip vs := by rw [hz]; simp
    exact (List.of_mem_zip this).1
  obtain ⟨act, ha⟩ := hd a hin
  have hla : IsLater a (fragKey y.src.mapped y.dst.mapped y.ident (0, 0)) := by
    rcases later_cases ha (k := fragKey y.src.mapped y.dst.mapped y.ident (0, 0)) (fun e => by rw [hpr, hda]; exact C16_ipv4_later e y hy hyp hyl) with rfl | ⟨fw, rfl⟩
    · exact ha
    · exact absurd ha (hnt fw)
  obtain ⟨h1, f, h2, hpre, hf, -⟩ := hm pre a v post hz _ hla hv
  refine ⟨f, _, by rw [hpre]; simp, hf, rfl, ?_⟩
  intro x hx hxp hfp hfd
  obtain ⟨-, ue, p, hg, hrc, hodd, hk⟩ := first_cases hf
  rw [hfp, hfd] at hg
  constructor
  · intro hxl
    rw [C16_ipv4_later ue x hx hxp hxl] at hg
    cases hg
    exact absurd hodd (show ¬ (2 : Int) % 2 = 1 by decide)
  · intro hxf
    obtain ⟨-, hreg⟩ := C16_ipv4_first ue x hx hxp hxf p hg hrc
    have : registered p = some (fragKey y.src.mapped y.dst.mapped y.ident (0, 0)) := by
      unfold withFragid at hk
      unfold registered
      cases hfi : p.fragid with
      | none => rw [hfi] at hk; cases hk
      | some z => rw [hfi] at hk; simp only [Res.ok.injEq] at hk; rw [← hk]; rfl
    rw [this] at hreg
    obtain ⟨q1, q2, q3, -⟩ := (C16_injective _ _ _ _ _ _ _ _).1 (Option.some.inj hreg)
    exact ⟨((C16_mapped_injective _ _).1 q1).symm, ((C16_mapped_injective _ _).1 q2).symm, q3.symm⟩

/-- C49, IPv6, for fragment headers directly after the IPv6 header: as for IPv4. -/
theorem C49_ipv6_partial (hsize maxBuckets maxFragments mtu t : Nat) (reass : Bool) (hpos : 0 < hsize) (as : List Arrival) (ht : Timed 0 as) (hd : ∀ a ∈ as, ∃ act, action a = .ok act) :
    ∃ ft vs, run (Frag.create hsize maxBuckets maxFragments mtu t reass) as = .ok (ft, vs) ∧ vs.length = as.length ∧
      ∀ pre a v post, as.zip vs = pre ++ (a, v) :: post → ∀ (y : V6) (g : FragHdr) (r : List UInt8), y.WF → y.nxt = 44 → y.payload = g.bytes ++ r → g.offset ≠ 0 →
        a.proto = 0x86dd → a.data = y.bytes → (∀ fw, action a ≠ .ok (.verdict fw)) → 0 ≤ v →
        ∃ f k, (f, v) ∈ pre ∧ IsFirst f k v ∧ k = fragKey y.src y.dst g.id0 g.id1 ∧
          ∀ (x : V6) (g' : FragHdr) (r' : List UInt8), x.WF → x.nxt = 44 → x.payload = g'.bytes ++ r' → f.proto = 0x86dd → f.data = x.bytes →
            g'.offset = 0 ∧ x.src = y.src ∧ x.dst = y.dst ∧ g'.id0 = g.id0 ∧ g'.id1 = g.id1 := by
  obtain ⟨ft, vs, e, hl, hm⟩ := C49_first_before_partial hsize maxBuckets maxFragments mtu t reass hpos as ht hd
  refine ⟨ft, vs, e, hl, ?_⟩
  intro pre a v post hz y g r hy hyn hyp hyl hpr hda hnt hv
  have hin : a ∈ as := by
    have : (a, v) ∈ as.zip vs := by rw [hz]; simp
    exact (List.of_mem_zip this).1
  obtain ⟨act, ha⟩ := hd a hin
  have hla : IsLater a (fragKey y.src y.dst g.id0 g.id1) := by
    rcases later_cases ha (k := fragKey y.src y.dst g.id0 g.id1) (fun e => by rw [hpr, hda]; exact C16_ipv6_later_partial e y g r hy hyn hyp hyl) with rfl | ⟨fw, rfl⟩
    · exact ha
    · exact absurd ha (hnt fw)
  obtain ⟨h1, f, h2, hpre, hf, -⟩ := hm pre a v post hz _ hla hv
  refine ⟨f, _, by rw [hpre]; simp, hf, rfl, ?_⟩
  intro x g' r' hx hxn hxp hfp hfd
  obtain ⟨-, ue, p, hg, hrc, hodd, hk⟩ := first_cases hf
  rw [hfp, hfd] at hg
  have h0 : g'.offset = 0 := by
    by_cases h0 : g'.offset = 0
    · exact h0
    · rw [C16_ipv6_later_partial ue x g' r' hx hxn hxp h0] at hg
      cases hg
      exact absurd hodd (show ¬ (2 : Int) % 2 = 1 by decide)
  refine ⟨h0, ?_⟩
  obtain ⟨-, hreg⟩ := C16_ipv6_first_partial ue x g' r' hx hxn hxp h0 p hg hrc
  have : registered p = some (fragKey y.src y.dst g.id0 g.id1) := by
    unfold withFragid at hk
    unfold registered
    cases hfi : p.fragid with
    | none => rw [hfi] at hk; cases hk
    | some z => rw [hfi] at hk; simp only [Res.ok.injEq] at hk; rw [← hk]; rfl
  rw [this] at hreg
  obtain ⟨q1, q2, q3, q4⟩ := (C16_injective _ _ _ _ _ _ _ _).1 (Option.some.inj hreg)
  exact ⟨q1.symm, q2.symm, q3.symm, q4.symm⟩

/-- A packet for `lb` with the configuration of the examples. -/
def eArr (proto : Nat) (data : Packet) (now id : Nat) : Arrival := ⟨.lb demoConf, proto, data, now, id, true, 1⟩

/-- A history that meets the hypotheses: a later fragment, the first fragment, which is forwarded with mark 5, later fragments, another first fragment, and fragments of another datagram, without first fragment. -/
def eHist : List Arrival :=
  [eArr 0x0800 frag4b.bytes 1 1, eArr 0x0800 frag4a.bytes 2 2, eArr 0x0800 frag4b.bytes 3 3, eArr 0x0800 { frag4b with ident := (1, 3) }.bytes 4 4, eArr 0x0800 frag4a.bytes 5 5, eArr 0x0800 frag4b.bytes 6 6]

example : Timed 0 eHist := by simp [eHist, Timed, eArr]

example : eHist.map action = [.ok (.later (fragKey a1.mapped a2.mapped (1, 2) (0, 0))), .ok (.first (fragKey a1.mapped a2.mapped (1, 2) (0, 0)) 5), .ok (.later (fragKey a1.mapped a2.mapped (1, 2) (0, 0))),
    .ok (.later (fragKey a1.mapped a2.mapped (1, 3) (0, 0))), .ok (.first (fragKey a1.mapped a2.mapped (1, 2) (0, 0)) 5), .ok (.later (fragKey a1.mapped a2.mapped (1, 2) (0, 0)))] := by decide +kernel

example : (do
    let x ← E2E.run (Frag.create 1 2 3 1500 200 false) eHist
    return x.2) = .ok [-1, 5, 5, -1, -1, 5] := by decide +kernel

/-- The first fragment of an IPv6 datagram with identification 9.9.9.9. -/
def frag6c : V6 := { tcp6 with nxt := 44, payload := FragHdr.bytes ⟨6, 0, (0, 1), (9, 9), (9, 9)⟩ ++ tcp6.payload }

/-- C49 as stated is false: a fragment with 16 bytes of destination options before the fragment header, of the datagram with identification 1.2.3.4 (`opts6`), is forwarded with the mark of another datagram; its own first
fragment has not come. The cause is `C16_violated_ext`. -/
theorem C49_violated : (do
    let x ← E2E.run (Frag.create 1 2 3 1500 200 false) [eArr 0x86dd frag6c.bytes 1 1, eArr 0x86dd (opts6 (3, 4)).bytes 2 2]
    return x.2) = .ok [5, 5] := by decide +kernel

end Nfqlb.Props
