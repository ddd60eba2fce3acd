import Verif.Proof.Tun
import Verif.Props.EndToEnd

/-! C93: fragments that come before the first fragment are kept and written to the tun device. -/

set_option autoImplicit false

namespace Nfqlb.Props

open Nfqlb Nfqlb.E2E Nfqlb.Spec.E2E Nfqlb.Spec.Tun
open Nfqlb.Spec (V4 V6 L4 FragHdr fragKey)

/-- C93: packets are handled one after the other by `lb` or `flowlb` with a tun device, any configuration at any time. `f` is the first fragment of the datagram with key `k` and gets the mark `fw`; `w` are the packets before it,
from some moment on at which the fragments with this key that came before are old. If the fragments of the datagram in `w`, `f` and `post` do not come more than the ttl after each other, and those in `w` are not longer than
the mtu, and there is room for all fragments, then those in `w` are dropped, and when `f` comes exactly these are written to the tun device, unchanged and each of them once, the last one first. Fragments that come later, also those that come
back from the tun device, get the mark of `f`; another first fragment with the same key is dropped, and nothing is written. No reassembler reports that a datagram is complete. -/
theorem C93_through (hsize maxBuckets maxFragments mtu t : Nat) (reass : Bool) (hpos : 0 < hsize) (h32 : hsize + maxBuckets < 2 ^ 32) (pre w post : List Arrival) (f : Arrival) (k : Key) (fw : Int)
    (ht : Timed 0 (pre ++ (w ++ f :: post))) (hd : ∀ a ∈ pre ++ (w ++ f :: post), ∃ act, action a = .ok act) (hrc : ∀ a ∈ pre ++ (w ++ f :: post), a.rcAsm ≠ 0)
    (hroom : Room maxBuckets maxFragments (pre ++ (w ++ f :: post)))
    (hold : ∀ a ∈ pre, About a k → ∀ b ∈ w ++ [f], About b k → a.now + t * 1000000 % 4294967296 < b.now)
    (hw : ∀ a ∈ w, ∀ fw', ¬ IsFirst a k fw') (hf : IsFirst f k fw) (htog : Together (t * 1000000 % 4294967296) k (w ++ f :: post)) (hlen : ∀ a ∈ w, IsLater a k → a.data.length ≤ mtu) :
    ∃ s os1 os2 os3, Tun.run true ⟨Frag.create hsize maxBuckets maxFragments mtu t reass, []⟩ (pre ++ (w ++ f :: post)) = .ok (s, os1 ++ (os2 ++ (fw, (laters k w).reverse) :: os3)) ∧
      os1.length = pre.length ∧ os2.length = w.length ∧ os3.length = post.length ∧
      (∀ a o, (a, o) ∈ w.zip os2 → IsLater a k → o = (-1, [])) ∧
      (∀ a o, (a, o) ∈ post.zip os3 → (IsLater a k → o = (fw, [])) ∧ (∀ fw', IsFirst a k fw' → o = (-1, []))) := by
  have hN : u32 (hsize + maxBuckets) = hsize + maxBuckets := by unfold u32; omega
  obtain ⟨ks, hks, hk⟩ := hroom.dgrams
  have hmb : maxBuckets ≤ u32 (hsize + maxBuckets) := by omega
  have g0 : Tun.Good (u32 (hsize + maxBuckets)) maxBuckets maxFragments (t * 1000000 % 4294967296) mtu ks ⟨Frag.create hsize maxBuckets maxFragments mtu t reass, []⟩ [] 0 0 :=
    ⟨Frag.create_finv hpos, Frag.create_rel hpos _, rfl, ⟨by simp, by simp, Nat.le_refl _⟩, by simp⟩
  have y0 : Tun.Hyp maxFragments ks 0 0 (pre ++ (w ++ f :: post)) := ⟨ht, hd, hk, hrc, by rw [Nat.zero_add]; exact hroom.frags⟩
  obtain ⟨s1, os1, h1, t1, n1, e1, l1, g1, y1, p1⟩ := Tun.run_before hks hmb true k (fun x => ∀ b ∈ w ++ [f], About b k → x + t * 1000000 % 4294967296 < b.now) (w ++ f :: post) pre g0 y0 (by simp) hold
  obtain ⟨s2, os2, h2, t2, n2, last, e2, l2, g2, y2, p2, c2, ho2⟩ := Tun.run_waiting hks hmb (k := k) (P := fun x => ∀ b ∈ w ++ [f], About b k → x + t * 1000000 % 4294967296 < b.now) (f :: post) w
    (ps := []) (last := none) g1 y1 ⟨rfl, p1⟩ (Tun.closeR_none _ htog) (fun a ha hab x hx => hx a (by simp [ha]) hab) hw hlen
  rw [List.append_nil] at p2
  obtain ⟨s3, h3, t3, n3, e3, g3, y3, p3, c3⟩ := Tun.first_step hks hmb g2 y2 p2 c2 (fun x hx => hx f (by simp) (.inr ⟨fw, hf⟩)) hf
  obtain ⟨s4, os3, e4, l4, ho4⟩ := Tun.run_after hks hmb post g3 y3 p3 c3
  exact ⟨s4, os1, os2, os3, Tun.run_append e1 (Tun.run_append e2 (Tun.run_cons e3 e4)), l1, l2, l4, ho2, ho4⟩

/-- C93, nothing else is written: only when a first fragment is handled, and never without a tun device. Then the fragments that wait are lost. -/
theorem C93_only (tun : Bool) (s s' : Tun.St) (a : Arrival) (v : Int) (ps : List Packet) (h : Tun.handle tun s a = .ok (s', v, ps)) (hp : ps ≠ []) : tun = true ∧ ∃ k fw, IsFirst a k fw := by
  unfold Tun.handle at h
  cases he : E2E.handle s.ft { a with id := s.mem.length } with
  | ok x =>
    obtain ⟨ft, v', ids⟩ := x
    rw [he] at h
    simp only [Res.ok_bind] at h
    cases hw : Tun.writes tun (s.mem ++ [a.data]) ids with
    | ok qs =>
      rw [hw] at h
      simp only [Res.ok_bind, Res.pure_eq, Res.ok.injEq, Prod.mk.injEq] at h
      obtain ⟨-, -, rfl⟩ := h
      constructor
      · cases tun
        · exact absurd (Tun.writes_none hw) hp
        · rfl
      · have hids : ids ≠ [] := by
          rintro rfl
          cases hw
          exact hp rfl
        cases ha : action a with
        | ok act =>
          have ha' : action { a with id := s.mem.length } = .ok act := ha
          simp only [E2E.handle, ha', Res.ok_bind] at he
          cases act with
          | verdict fw => cases he; exact absurd rfl hids
          | later k =>
            unfold finish at he
            cases hs : Frag.step s.ft (.frag a.now k s.mem.length a.data.length a.newOk a.rcAsm) with
            | ok y =>
              obtain ⟨ft1, r⟩ := y
              simp only [hs, Res.ok_bind] at he
              split at he
              · cases he; exact absurd rfl hids
              · cases he
              · cases he; exact absurd rfl hids
            | die => simp [hs] at he
            | ub => simp [hs] at he
            | hang => simp [hs] at he
          | first k fw => exact ⟨k, fw, ha⟩
        | die => have ha' : action { a with id := s.mem.length } = .die := ha; simp [E2E.handle, ha'] at he
        | ub => have ha' : action { a with id := s.mem.length } = .ub := ha; simp [E2E.handle, ha'] at he
        | hang => have ha' : action { a with id := s.mem.length } = .hang := ha; simp [E2E.handle, ha'] at he
    | die => simp [hw] at h
    | ub => simp [hw] at h
    | hang => simp [hw] at h
  | die => simp [he] at h
  | ub => simp [he] at h
  | hang => simp [he] at h

/-- C93 for IPv4: if `f` is an IPv4 first fragment, then the IPv4 later fragments that are handled here and have the key of `f` are those of the same datagram: with the same addresses and the same identification. -/
theorem C93_ipv4 (f a : Arrival) (k : Key) (fw : Int) (hf : IsFirst f k fw) (x y : V4) (hx : x.WF) (hxp : x.payload ≠ []) (hxf : x.FirstFragment) (hfp : f.proto = 0x0800) (hfd : f.data = x.bytes)
    (hy : y.WF) (hyp : y.payload ≠ []) (hyl : y.LaterFragment) (hap : a.proto = 0x0800) (had : a.data = y.bytes) (hact : ∃ act, action a = .ok act) (hnt : ∀ fw', action a ≠ .ok (.verdict fw')) :
    IsLater a k ↔ y.src = x.src ∧ y.dst = x.dst ∧ y.ident = x.ident := by
  obtain ⟨act, ha⟩ := hact
  have hla : IsLater a (fragKey y.src.mapped y.dst.mapped y.ident (0, 0)) := by
    rcases later_cases ha (k := fragKey y.src.mapped y.dst.mapped y.ident (0, 0)) (fun e => by rw [hap, had]; exact C16_ipv4_later e y hy hyp hyl) with rfl | ⟨fw', rfl⟩
    · exact ha
    · exact absurd ha (hnt fw')
  have hkx : k = fragKey x.src.mapped x.dst.mapped x.ident (0, 0) := by
    obtain ⟨-, ue, p, hg, hrc, hodd, hk⟩ := first_cases hf
    rw [hfp, hfd] at hg
    obtain ⟨-, hreg⟩ := C16_ipv4_first ue x hx hxp hxf p hg hrc
    unfold withFragid at hk
    unfold registered at hreg
    cases hfi : p.fragid with
    | none => rw [hfi] at hk; cases hk
    | some z =>
      rw [hfi] at hk hreg
      simp only [Res.ok.injEq] at hk
      exact hk.symm.trans (Option.some.inj hreg)
  have : IsLater a k ↔ fragKey y.src.mapped y.dst.mapped y.ident (0, 0) = k := by
    constructor
    · intro h
      unfold IsLater at h hla
      rw [hla] at h
      injection h with h
      injection h
    · rintro rfl; exact hla
  rw [this, hkx, C16_injective, C16_mapped_injective, C16_mapped_injective]
  simp

/-- A case that meets the hypotheses: the later fragment of another datagram, two fragments of a datagram with another packet between them, its first fragment, and the two fragments again, which come back from the tun device. -/
def tunPre : List Arrival := [eArr 0x0800 { frag4b with ident := (1, 3) }.bytes 1 0]

def tunW : List Arrival := [eArr 0x0800 frag4b.bytes 2 0, eArr 0x0800 { frag4b with ident := (1, 3) }.bytes 3 0, eArr 0x0800 { frag4b with payload := frag4b.payload ++ [7] }.bytes 4 0]

def tunF : Arrival := eArr 0x0800 frag4a.bytes 5 0

def tunPost : List Arrival := [eArr 0x0800 { frag4b with payload := frag4b.payload ++ [7] }.bytes 6 0, eArr 0x0800 frag4b.bytes 7 0, eArr 0x0800 frag4a.bytes 8 0]

def tunKey : Key := fragKey a1.mapped a2.mapped (1, 2) (0, 0)

/-- Fragments that come at nearly the same time. -/
theorem Tun.together_of {T : Nat} {k : Key} {l : List Arrival} (h : ∀ a ∈ l, ∀ b ∈ l, b.now ≤ a.now + T) : Together T k l := by
  rintro l1 a l2 b l3 rfl - - -
  exact h a (by simp) b (by simp)

example : (tunPre ++ (tunW ++ tunF :: tunPost)).map action = [.ok (.later (fragKey a1.mapped a2.mapped (1, 3) (0, 0))), .ok (.later tunKey), .ok (.later (fragKey a1.mapped a2.mapped (1, 3) (0, 0))),
    .ok (.later tunKey), .ok (.first tunKey 5), .ok (.later tunKey), .ok (.later tunKey), .ok (.first tunKey 5)] := by decide +kernel

example : Timed 0 (tunPre ++ (tunW ++ tunF :: tunPost)) ∧ Together (200 * 1000000 % 4294967296) tunKey (tunW ++ tunF :: tunPost) := by
  constructor
  · simp [tunPre, tunW, tunF, tunPost, Timed, eArr]
  · refine Tun.together_of ?_
    simp [tunW, tunF, tunPost, eArr]

example : Room 2 6 (tunPre ++ (tunW ++ tunF :: tunPost)) := by
  refine ⟨⟨[tunKey, fragKey a1.mapped a2.mapped (1, 3) (0, 0)], by simp, ?_⟩, by decide +kernel⟩
  have h : ∀ a ∈ tunPre ++ (tunW ++ tunF :: tunPost), action a = .ok (.later tunKey) ∨ action a = .ok (.later (fragKey a1.mapped a2.mapped (1, 3) (0, 0))) ∨ action a = .ok (.first tunKey 5) := by
    decide +kernel
  intro a ha k hk
  rcases hk with hk | ⟨fw, hk⟩
  · unfold IsLater at hk
    rcases h a ha with e | e | e <;> (rw [e] at hk; cases hk) <;> simp
  · unfold IsFirst at hk
    rcases h a ha with e | e | e <;> (rw [e] at hk; cases hk) <;> simp

example : (∀ a ∈ tunPre, action a ≠ .ok (.later tunKey) ∧ ∀ fw, action a ≠ .ok (.first tunKey fw)) ∧ (∀ a ∈ tunW, ∀ fw, ¬ IsFirst a tunKey fw) ∧ (∀ a ∈ tunW, a.data.length ≤ 1500) := by
  have h : ∀ a ∈ tunPre ++ tunW, action a = .ok (.later tunKey) ∨ action a = .ok (.later (fragKey a1.mapped a2.mapped (1, 3) (0, 0))) := by decide +kernel
  refine ⟨?_, ?_, by decide +kernel⟩
  · intro a ha
    have : action a = .ok (.later (fragKey a1.mapped a2.mapped (1, 3) (0, 0))) := by
      revert a
      decide +kernel
    rw [this]
    exact ⟨by decide +kernel, by simp⟩
  · intro a ha fw hf
    unfold IsFirst at hf
    rcases h a (by simp [ha]) with e | e <;> (rw [e] at hf; cases hf)

/-- What comes out: both fragments are written when the first one comes, and get its mark when they come back. -/
example : (do
    let x ← Tun.run true ⟨Frag.create 1 2 6 1500 200 false, []⟩ (tunPre ++ (tunW ++ tunF :: tunPost))
    return x.2) = .ok [(-1, []), (-1, []), (-1, []), (-1, []), (5, [{ frag4b with payload := frag4b.payload ++ [7] }.bytes, frag4b.bytes]), (5, []), (5, []), (-1, [])] := by decide +kernel

/-- The hypotheses of `C93_ipv4` hold for the first fragment and the first of the fragments that wait. -/
example : frag4a.WF ∧ frag4a.payload ≠ [] ∧ frag4a.FirstFragment ∧ frag4b.WF ∧ frag4b.payload ≠ [] ∧ frag4b.LaterFragment ∧ frag4b.src = frag4a.src ∧ frag4b.dst = frag4a.dst ∧ frag4b.ident = frag4a.ident := by
  unfold V4.WF V4.FirstFragment V4.LaterFragment V4.moreFragments
  decide +kernel

/-- Without room the fragments are lost: with room for one fragment the second one spoils the datagram, and the first fragment is dropped too. -/
example : (do
    let x ← Tun.run true ⟨Frag.create 1 2 1 1500 200 false, []⟩ (tunW ++ tunF :: tunPost)
    return x.2) = .ok [(-1, []), (-1, []), (-1, []), (-1, []), (-1, []), (-1, []), (-1, [])] := by decide +kernel

/-- Without a tun device they are lost too. -/
example : (do
    let x ← Tun.run false ⟨Frag.create 1 2 6 1500 200 false, []⟩ (tunW ++ [tunF])
    return x.2) = .ok [(-1, []), (-1, []), (-1, []), (5, [])] := by decide +kernel

end Nfqlb.Props
