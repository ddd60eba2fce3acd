import Verif.Spec.Xlb
import Verif.Proof.System

set_option autoImplicit false

namespace Nfqlb.XSys

open Nfqlb Nfqlb.Maglev Nfqlb.Cmd Nfqlb.Session Nfqlb.Spec Nfqlb.Spec.Session Nfqlb.Spec.XSys Nfqlb.Spec.Nfq Nfqlb.Spec.Pkt Nfqlb.E2E
open Nfqlb.Spec.Cmd

/-! ### The key -/

/-- The parser gives a key with these addresses. -/
def Addrs (r : Res Parsed) (s d : List UInt8) : Prop := ∃ p, r = .ok p ∧ 0 ≤ p.rc ∧ p.key.src = s ∧ p.key.dst = d

theorem ports0 {d : Packet} (proto : UInt8) {pos : Nat} (swap : Bool) (k : Key) {rc : Int} (f : Option (Raw16 × Raw16)) (h : pos + 4 < d.length) (h0 : 0 ≤ rc) :
    Addrs (portsPart 0 d proto pos swap k rc f) k.src k.dst := by
  obtain ⟨a, ha⟩ := rd16_ok (d := d) (i := pos) (by omega)
  obtain ⟨b, hb⟩ := rd16_ok (d := d) (i := pos + 2) (by omega)
  unfold portsPart
  rw [inBounds_iff.2 h, ha, hb]
  simp only [Bool.not_true, Bool.false_eq_true, if_false, Res.ok_bind, ne_eq, not_true_eq_false, false_and, Res.pure_eq]
  exact ⟨_, rfl, h0, rfl, rfl⟩

theorem from4 {q : Queued} {s d : List UInt8} (h : From4 q s d) : Addrs (getHashKey 0 q.proto q.data) s d := by
  obtain ⟨x, hx, hp, hd, rfl, rfl, h⟩ := h
  rw [hp, hd]
  show Addrs (getHashKeyIpv4 0 x.bytes) _ _
  rcases h with ⟨hl, hne⟩ | ⟨h1, hne, hports⟩ | ⟨h1, i, hi, ht⟩
  · rw [v4_later 0 hx hne hl]
    exact ⟨_, rfl, by norm_num, rfl, rfl⟩
  · rw [getHashKeyIpv4_eq 0 hx hne]
    dsimp only
    split
    · exact ⟨_, rfl, by norm_num, rfl, rfl⟩
    by_cases hh : hasPorts x.proto = true
    · rw [hh]
      exact ports0 _ _ _ _ (by have := hports ((hasPorts_iff _).1 hh); omega) (by split <;> decide)
    · rw [Bool.not_eq_true] at hh
      rw [hh]
      refine ⟨_, rfl, ?_, rfl, rfl⟩
      dsimp only
      split <;> decide
  · have hne : x.payload ≠ [] := by rw [hi]; simp [Icmp.bytes]
    rw [getHashKeyIpv4_eq 0 hx hne]
    dsimp only
    split
    · exact ⟨_, rfl, by norm_num, rfl, rfl⟩
    rw [hi]
    have r0 : rd i.bytes 0 = .ok i.type := rfl
    have r1 : rd16 i.bytes 4 = .ok i.x0 := rfl
    rw [r0, Res.ok_bind]
    have ht' : (decide (i.type = 3) || decide (i.type = 4) || decide (i.type = 5) || decide (i.type = 11)) = false := by
      simp only [List.mem_cons, List.not_mem_nil, or_false, not_or] at ht
      simp [ht]
    rw [ht']
    simp only [Bool.false_eq_true, if_false]
    split
    · rw [r1, Res.ok_bind]
      refine ⟨_, rfl, ?_, rfl, rfl⟩
      dsimp only
      split <;> decide
    · refine ⟨_, rfl, ?_, rfl, rfl⟩
      dsimp only
      split <;> decide

theorem about4 {q : Queued} {s d : List UInt8} (h : About4 q s d) : Addrs (getHashKey 0 q.proto q.data) s d := by
  obtain ⟨x, y, i, hx, hy, hp, hd, hu, h1, hi, ht, hr, ⟨hne, hports⟩, rfl, rfl⟩ := h
  rw [hp, hd]
  show Addrs (getHashKeyIpv4 0 x.bytes) _ _
  rw [v4_icmp 0 hx hu h1 hi (by simpa using ht), hr, innerV4_eq 0 _ rfl hy hne]
  dsimp only
  by_cases hh : hasPorts y.proto = true
  · rw [hh]
    exact ports0 _ _ _ _ (by have := hports ((hasPorts_iff _).1 hh); omega) (by decide)
  · rw [Bool.not_eq_true] at hh
    rw [hh]
    exact ⟨_, rfl, by norm_num, rfl, rfl⟩

theorem upper0 {d : Packet} {sa da : List UInt8} {frag : Bool} {f : Option (Raw16 × Raw16)} {t : UInt8} {hdr : Nat} (h58 : t ≠ 58) (hp : HasPorts t → hdr + 4 < d.length) :
    Addrs (ipv6Upper 0 d sa da frag f t hdr) sa da := by
  unfold ipv6Upper
  dsimp only
  rw [if_neg h58]
  by_cases hh : hasPorts t = true
  · rw [hh]
    exact ports0 _ _ _ _ (hp ((hasPorts_iff _).1 hh)) (by split <;> decide)
  · rw [Bool.not_eq_true] at hh
    rw [hh]
    refine ⟨_, rfl, ?_, rfl, rfl⟩
    dsimp only
    split <;> decide

theorem from6 {q : Queued} {s d : List UInt8} (h : From6 q s d) : Addrs (getHashKey 0 q.proto q.data) s d := by
  obtain ⟨x, hx, hp, hd, rfl, rfl, h⟩ := h
  rw [hp, hd]
  show Addrs (getHashKeyIpv6 0 x.bytes) _ _
  rcases h with ⟨h1, h2, hne, hports⟩ | ⟨h1, i, hi, ht⟩ | ⟨h1, f, rest, hf, h⟩
  · rw [getHashKeyIpv6_eq 0 hx hne, walkExt_upper true x.payload x.nxt 0 h2, Res.ok_bind]
    dsimp only
    rw [if_neg (fun h => h2 (by rw [h]; unfold IsExt; decide))]
    exact upper0 h1 (fun hh => by have := hports hh; omega)
  · have hne : x.payload ≠ [] := by rw [hi]; simp [Icmp.bytes]
    have h2 : ¬ IsExt x.nxt := by rw [h1]; unfold IsExt; decide
    rw [getHashKeyIpv6_eq 0 hx hne, walkExt_upper true x.payload x.nxt 0 h2, Res.ok_bind]
    dsimp only
    rw [if_neg (by rw [h1]; decide), h1, hi]
    unfold ipv6Upper
    dsimp only
    have r0 : rd i.bytes 0 = .ok i.type := rfl
    have r1 : rd16 i.bytes (0 + 4) = .ok i.x0 := rfl
    rw [if_pos rfl, r0, Res.ok_bind]
    have ht' : (decide (i.type = 1) || decide (i.type = 2)) = false := by
      have e1 : i.type ≠ 1 := fun h => by rw [h] at ht; exact absurd ht (by decide)
      have e2 : i.type ≠ 2 := fun h => by rw [h] at ht; exact absurd ht (by decide)
      simp [e1, e2]
    rw [ht']
    simp only [Bool.false_eq_true, if_false]
    split
    · rw [r1, Res.ok_bind]
      exact ⟨_, rfl, by norm_num, rfl, rfl⟩
    · exact ⟨_, rfl, by norm_num, rfl, rfl⟩
  · rw [v6_frag_eq 0 hx h1 hf]
    rcases h with h | ⟨h2, h3, h4⟩
    · rw [if_neg h]
      exact ⟨_, rfl, by norm_num, rfl, rfl⟩
    · by_cases h0 : f.offset = 0
      · rw [if_pos h0]
        obtain ⟨pre, hpre, hsplit⟩ := V6.split hx
        have e0 : rd x.bytes 40 = .ok f.nxt := by
          rw [hsplit, hf]
          have := rd_append_right pre (f.bytes ++ rest) 0
          rw [hpre] at this
          exact this.trans rfl
        have e1 : rd x.bytes (40 + 1) = .ok f.reserved := by
          rw [hsplit, hf]
          have := rd_append_right pre (f.bytes ++ rest) 1
          rw [hpre] at this
          exact this.trans rfl
        have hw : walkFrag x.bytes (turns x.bytes) 44 40 = .ok (f.nxt, 40) := by
          unfold turns
          rw [walkFrag, if_neg (by decide), e0, e1, h2]
          simp only [Res.ok_bind]
          rw [walkFrag, if_pos (by
            have : ¬ isExtensionHeader f.nxt = true := fun h => h4 ((isExt_iff _).1 h)
            simpa using this)]
          rfl
        rw [hw, Res.ok_bind]
        refine upper0 h3 ?_
        intro _
        rw [V6.len hx, hf]
        simp [FragHdr.bytes]
        omega
      · rw [if_neg h0]
        exact ⟨_, rfl, by norm_num, rfl, rfl⟩

theorem about6 {q : Queued} {s d : List UInt8} (h : About6 q s d) : Addrs (getHashKey 0 q.proto q.data) s d := by
  obtain ⟨x, y, i, hx, hy, hp, hd, h1, hi, ht, hr, he, ⟨hne, hports⟩, rfl, rfl⟩ := h
  rw [hp, hd]
  show Addrs (getHashKeyIpv6 0 x.bytes) _ _
  rw [v6_icmp 0 hx h1 hi (by simpa using ht), hr, innerV6_eq 0 _ rfl hy hne he]
  dsimp only
  by_cases hh : hasPorts y.nxt = true
  · rw [hh]
    exact ports0 _ _ _ _ (by have := hports ((hasPorts_iff _).1 hh); omega) (by decide)
  · rw [Bool.not_eq_true] at hh
    rw [hh]
    exact ⟨_, rfl, by norm_num, rfl, rfl⟩

theorem belongs_key {q : Queued} {s d : List UInt8} (h : Belongs q s d) : Addrs (getHashKey 0 q.proto q.data) s d := by
  rcases h with h | h | h | h
  · exact from4 h
  · exact about4 h
  · exact from6 h
  · exact about6 h

/-! ### The decision -/

theorem xlb_cases {m : Mag} (hd : MagInv m) {q : Queued} (hw : Whole q.proto q.data) :
    ∃ r, xlbDecide m q.proto q.data = .ok r ∧ (r = -1 ∨ r ∈ activeMarks m.active) := by
  obtain ⟨p, hp⟩ := Server.whole_ok hw 0
  by_cases hrc : p.rc < 0
  · refine ⟨-1, ?_, .inl rfl⟩
    unfold xlbDecide
    rw [hp, Res.ok_bind, if_pos hrc]
    rfl
  · rw [xlbDecide_eq hd hp (by omega)]
    obtain ⟨fw, e, h⟩ := target_cases hd (hashKeyAddresses p.key)
    refine ⟨fw, e, ?_⟩
    rcases h with ⟨_, h, _⟩ | ⟨_, h⟩
    · exact .inr h
    · exact .inl h

theorem xlb_same {m : Mag} (hd : MagInv m) (s d : List UInt8) :
    ∃ r, (activeMarks m.active ≠ ∅ → r ∈ activeMarks m.active) ∧ ∀ q, Belongs q s d → xlbDecide m q.proto q.data = .ok r := by
  obtain ⟨fw, e, h⟩ := target_cases hd (djb2 (s ++ d))
  refine ⟨fw, ?_, ?_⟩
  · intro hne
    rcases h with ⟨_, h, _⟩ | ⟨h, _⟩
    · exact h
    · exact absurd h hne
  · intro q hq
    obtain ⟨p, hp, h0, rfl, rfl⟩ := belongs_key hq
    rw [xlbDecide_eq hd hp h0]
    exact e

/-! ### The whole -/

theorem not_touched {nm : Str → Option Str} {rnd : Nat → Nat} {w w' : Store} {t : List Char} (p : Proc) (l : Line) (hn : nm l.shm = some l.shm) (hg : Apart p.tshm l)
    (h : Session.line nm rnd w l.argv = .ok (w', t)) : touched l.argv w w' p = false := by
  have ha : Sys.Apart ⟨p.tshm, none, 0, 0⟩ l := by
    cases l with
    | init n own M N => exact ⟨hg, by simp⟩
    | delete n => exact ⟨hg, by simp⟩
    | activate _ _ => trivial
    | deactivate _ _ => trivial
  have h1 := Sys.not_touched (c := ⟨p.tshm, none, 0, 0⟩) ⟨⟨0, 0, 0, 0, false, 0, none, 0, 0, 0, 0, none, 0, []⟩, p.tshm, none, Frag.create 1 0 0 0 0 false⟩ l hn rfl rfl ha h
  unfold Sys.touched at h1
  unfold touched
  simpa using h1

theorem apart_keeps {tshm : List Char} {l : Line} (ha : Apart tshm l) {S : Lbs} (h : S tshm ≠ none) : l.apply S tshm ≠ none := by
  have ha' : Sys.Apart ⟨tshm, none, 0, 0⟩ l := by
    cases l with
    | init n own M N => exact ⟨ha, by simp⟩
    | delete n => exact ⟨ha, by simp⟩
    | activate _ _ => trivial
    | deactivate _ _ => trivial
  exact Sys.apart_keeps ha' (.inl rfl) h

/-- What holds between the events. -/
structure Inv (w : Store) (p : Proc) (S : Lbs) (recent : List (Queued × Int)) : Prop where
  has : Has w S
  small : Sys.Small S
  there : S p.tshm ≠ none
  same : ∀ t, w p.tshm = some t → ∀ q r s d, (q, r) ∈ recent → Belongs q s d → xlbDecide t.mag q.proto q.data = .ok r

/-- One packet. -/
theorem packet_ok {page : Nat} (hp : 40 ≤ page) {w : Store} {p : Proc} {S : Lbs} {recent : List (Queued × Int)} (i : Inv w p S recent) {q : Queued} {m : Nfq.Msg} (hm : Carries m q)
    (hw : Whole q.proto q.data) :
    ∃ o r lb, packet page w p m = .ok [o] ∧ Sys.Reads o q r ∧ S p.tshm = some lb ∧ (r = -1 ∨ r ∈ lb.targets) ∧
      (∀ s d, Belongs q s d → (lb.targets ≠ ∅ → r ∈ lb.targets) ∧ ∀ q' r', (q', r') ∈ recent → Belongs q' s d → r' = r) ∧ Inv w p S ((q, r) :: recent) := by
  rcases i.has p.tshm with ⟨_, h⟩ | ⟨t, lb, h1, h2, hs⟩
  · exact absurd h i.there
  obtain ⟨r, hr, hc⟩ := xlb_cases hs.inv hw
  rw [hs.targets] at hc
  have hrange : -2147483648 ≤ r ∧ r < 2147483648 := by
    rcases hc with rfl | hc
    · omega
    · have := i.small _ _ h2 r hc; omega
  have hhand : handler t.mag () q.proto q.data q.data.length = .ok ((), r) := by
    unfold handler
    rw [List.take_length, hr]
    rfl
  obtain ⟨vd, hq, hans⟩ := Nfq.queueCb_carries (handler t.mag) () () m q r hm hhand hrange.1 hrange.2
  obtain ⟨o, ho, hreads⟩ := Sys.encode_one hp hm hans hrange.2
  refine ⟨o, r, lb, ?_, hreads, h2, hc, ?_, i.has, i.small, i.there, ?_⟩
  · unfold packet
    rw [h1]
    dsimp only
    rw [hq, Res.ok_bind]
    dsimp only
    rw [ho, Res.ok_bind, if_neg (by decide)]
    rfl
  · intro s d hb
    obtain ⟨r0, g1, g2⟩ := xlb_same hs.inv s d
    have e := g2 q hb
    rw [hr] at e
    cases e
    rw [hs.targets] at g1
    refine ⟨g1, ?_⟩
    intro q' r' hm' hb'
    have := i.same t h1 q' r' s d hm' hb'
    rw [g2 q' hb'] at this
    cases this
    rfl
  · intro t' ht' q' r' s d hm' hb'
    rw [h1] at ht'
    cases ht'
    rcases List.mem_cons.1 hm' with e | hm'
    · cases e
      exact hr
    · exact i.same t h1 q' r' s d hm' hb'

/-- All events. -/
theorem run_right {page : Nat} (hp : 40 ≤ page) {nm : Str → Option Str} {rnd : Nat → Nat} {p : Proc} : ∀ (evs : List Ev) {w : Store} {S : Lbs} {recent : List (Queued × Int)},
    Inv w p S recent → Good nm p.tshm evs → ∃ w' outs, run nm rnd page p w (evs.map Ev.event) = .ok (w', outs) ∧ Right p.tshm S recent evs outs
  | [], w, S, recent, _, _ => ⟨w, [], rfl, rfl⟩
  | .line l :: evs, w, S, recent, i, hg => by
    obtain ⟨hn, hr, ha, hg⟩ := hg
    have i' : ∀ w', Has w' (l.apply S) → Inv w' p (l.apply S) [] := by
      intro w' hw'
      exact ⟨hw', Sys.small_apply i.small l hr, apart_keeps ha i.there, fun _ _ _ _ _ _ h => by cases h⟩
    rcases line_does (rnd := rnd) i.has l hn hr with ⟨w1, t1, e, h', _⟩ | ⟨e, h', _⟩
    · obtain ⟨w2, outs, e2, r2⟩ := run_right hp (nm := nm) (rnd := rnd) evs (i' w1 h') hg
      refine ⟨w2, outs, ?_, r2⟩
      have hs : step nm rnd page w p (Ev.line l).event = .ok (w1, []) := by
        simp only [Ev.event, step, e, not_touched p l hn ha e, Bool.false_eq_true, if_false]
      rw [List.map_cons, run, hs, Res.ok_bind]
      dsimp only
      rw [e2]
      rfl
    · obtain ⟨w2, outs, e2, r2⟩ := run_right hp (nm := nm) (rnd := rnd) evs (i' w h') hg
      refine ⟨w2, outs, ?_, r2⟩
      have hs : step nm rnd page w p (Ev.line l).event = .ok (w, []) := by
        simp only [Ev.event, step, e]
      rw [List.map_cons, run, hs, Res.ok_bind]
      dsimp only
      rw [e2]
      rfl
  | .packet q m :: evs, w, S, recent, i, hg => by
    obtain ⟨hm, hw, hg⟩ := hg
    obtain ⟨o, r, lb, e, h1, h2, h3, h4, i'⟩ := packet_ok hp i hm hw
    obtain ⟨w2, outs, e2, r2⟩ := run_right hp (nm := nm) (rnd := rnd) evs i' hg
    refine ⟨w2, o :: outs, ?_, o, outs, r, lb, rfl, h1, h2, h3, h4, r2⟩
    have hs : step nm rnd page w p (Ev.packet q m).event = .ok (w, [o]) := by
      simp only [Ev.event, step, e, Res.ok_bind, Res.pure_eq]
    rw [List.map_cons, run, hs, Res.ok_bind]
    dsimp only
    rw [e2]
    rfl

/-! ### The start -/

theorem good_xlb : GoodNames xlbOpts := by unfold GoodNames; decide +kernel

theorem parse_launch (l : Launch) : ∃ vars k, parseOrDie xlbOpts l.argv = .ok (vars, k) ∧ valueOf vars "tshm".toList = some l.tshm ∧
    valueOf vars "queue".toList = some (Spec.Session.dec l.first ++ ':' :: Spec.Session.dec l.last) ∧ valueOf vars "qlength".toList = some "1024".toList := by
  let items : List Item := [.eq 1 l.tshm, .eq 2 (Spec.Session.dec l.first ++ ':' :: Spec.Session.dec l.last)]
  have hw : ∀ it ∈ items, it.WF xlbOpts := by
    intro it h
    simp only [items, List.mem_cons, List.not_mem_nil, or_false] at h
    rcases h with rfl | rfl <;> exact ⟨_, rfl, rfl⟩
  obtain ⟨vars, k, h1, h2, -⟩ := parse_items xlbOpts (by decide) good_xlb items hw
    (by
      intro i a h
      simp only [items, List.filterMap_cons, List.filterMap_nil, Item.got, List.mem_cons, List.not_mem_nil, or_false] at h
      rcases h with h | h <;> cases h <;> decide)
    rfl "xlb".toList
  have e : l.argv = "xlb".toList :: (items.map (Item.render xlbOpts)).flatten := rfl
  rw [← e] at h1
  refine ⟨vars, k, h1, ?_⟩
  have v1 := h2 1 (row "tshm" (some "nfqlb")) rfl
  have v2 := h2 2 (row "queue" (some "2")) rfl
  have v3 := h2 3 (row "qlength" (some "1024")) rfl
  exact ⟨v1, v2, v3⟩

/-- The program starts. -/
theorem boot_ok {nm : Str → Option Str} {thread : Nat → Bool} (ht : ∀ q, thread q = true) {w : Store} {S : Lbs} (h : Has w S) {l : Launch} (hl : l.Good nm S) :
    boot nm thread w l.argv = .ok ⟨l.tshm, 1024, List.range' l.first (l.last - l.first) ++ [l.last]⟩ := by
  obtain ⟨t1, t2, h3, h4⟩ := hl
  obtain ⟨vars, k, e, v1, v2, v3⟩ := parse_launch l
  have kq : Start.num vars "qlength" = .ok 1024 := by unfold Start.num; rw [v3]; rfl
  have hq : Start.queues thread (Spec.Session.dec l.first ++ ':' :: Spec.Session.dec l.last) = .ok (List.range' l.first (l.last - l.first) ++ [l.last]) := by
    unfold Start.queues
    rw [if_pos (by simp)]
    have : Start.scanRange (Spec.Session.dec l.first ++ ':' :: Spec.Session.dec l.last) = some (l.first, l.last) := Start.scanRange_digits l.first l.last (by omega) (by omega)
    rw [this]
    dsimp only
    rw [if_neg (by omega), if_pos (by rw [List.all_eq_true]; exact fun q _ => ht q)]
  unfold boot
  rw [e, Res.ok_bind]
  dsimp only
  rw [v1]
  dsimp only
  rw [Sys.mapObj_ok h t1 t2, Res.ok_bind, kq, Res.ok_bind, v2]
  dsimp only
  rw [hq, Res.ok_bind]
  rfl

/-- Whatever the options are: what is so after the start. -/
theorem boot_inv {nm : Str → Option Str} {thread : Nat → Bool} {w : Store} {S : Lbs} (h : Has w S) (hsm : Sys.Small S) {argv : List Str} {p : Proc} (hb : boot nm thread w argv = .ok p) : Inv w p S [] := by
  unfold boot at hb
  obtain ⟨⟨vars, k⟩, _, hb⟩ := Server.bind_ok hb
  dsimp only at hb
  split at hb
  · cases hb
  obtain ⟨k, hk, hb⟩ := Server.bind_ok hb
  obtain ⟨ql, _, hb⟩ := Server.bind_ok hb
  split at hb
  · cases hb
  obtain ⟨qs, _, hb⟩ := Server.bind_ok hb
  cases hb
  refine ⟨h, hsm, ?_, fun _ _ _ _ _ _ h => by cases h⟩
  show S k ≠ none
  unfold Sys.mapObj at hk
  split at hk
  · cases hk
  · split at hk
    · cases hk
    · rename_i k' _ hne
      cases hk
      rcases h k with ⟨e, _⟩ | ⟨s, lb, _, e, _⟩
      · exact absurd e hne
      · rw [e]; simp

end Nfqlb.XSys
