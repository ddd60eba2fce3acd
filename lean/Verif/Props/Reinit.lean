import Verif.Proof.Reinit

/-! Property C84: `init` on the shared memory of a running load-balancer. -/

set_option autoImplicit false

namespace Nfqlb.Props

open Nfqlb Nfqlb.Maglev Nfqlb.Spec
open Nfqlb.Reinit (File View Act Shm ShmCmd)

/-- The block that `initShm` writes is `own` and then `words` words, in pieces of any size. -/
def Block (pieces : List (List Int)) (own : Int) (words : Nat) : Prop :=
  ∃ junk : List Int, pieces.flatten = own :: junk ∧ junk.length = words

theorem init_view {M N : Nat} (h : M * N + M + N + 6 < 2 ^ 30) (hM : 0 < M) (rnd : Nat → Nat) (pieces : List (List Int)) (own : Int)
    (hb : Block pieces own (dataLen M N / 4)) (f : File) :
    ∃ mem, Reinit.acts f (Reinit.initActs pieces M N rnd) = .ok (own :: mem) ∧ mem.length = dataLen M N / 4 ∧
      mapMem mem = .ok ⟨M, N, List.replicate M (-1), (List.range N).map (randRow M rnd), List.replicate N (-1)⟩ ∧
      Reinit.map (own :: mem) = .ok { pages := Reinit.pages (dataLen M N / 4 + 1), M := M, N := N } := by
  obtain ⟨junk, hp, hj⟩ := hb
  have hF : Fits M N := by unfold Fits; omega
  obtain ⟨mem, h1, h2⟩ := init_mem hF hM rnd junk hj
  obtain ⟨mem', h1', hl, _⟩ := wrun_ok (initStores M N rnd) junk (by rw [hj]; exact initStores_in hF rnd)
  rw [h1] at h1'
  injection h1' with h1'
  subst h1'
  obtain ⟨e1, e2, _⟩ := Reinit.mapMem_parts h2
  refine ⟨mem, Reinit.acts_init_all hp f h1, by omega, h2, ?_⟩
  unfold Reinit.map
  rw [if_neg (by simp), List.length_cons, hl, hj, List.getD_cons_succ, List.getD_cons_succ, ← e1, ← e2]

/-- **C84** (partial: the new table has the dimensions of the old one, and no packet is handled while `init` runs).
A load-balancer that mapped the memory after a first `init` finds after a second one, whatever the kernel and `rand()` do, no target for every packet; it sees what a
process sees that maps the memory now. -/
theorem C84_same_size_partial (M N : Nat) (h : M * N + M + N + 6 < 2 ^ 30) (hM : 0 < M)
    (rnd rnd' : Nat → Nat) (ps ps' : List (List Int)) (own own' : Int)
    (hb : Block ps own (dataLen M N / 4)) (hb' : Block ps' own' (dataLen M N / 4)) (before : File) :
    ∃ f v f', Reinit.acts before (Reinit.initActs ps M N rnd) = .ok f ∧ Reinit.map f = .ok v ∧
      Reinit.acts f (Reinit.initActs ps' M N rnd') = .ok f' ∧ Reinit.map f' = .ok v ∧
      ∀ hash, Reinit.target v f' f' hash = .ok (-1) := by
  obtain ⟨mem, h1, hl, _, hv⟩ := init_view h hM rnd ps own hb before
  obtain ⟨mem', h1', hl', hm', hv'⟩ := init_view h hM rnd' ps' own' hb' (own :: mem)
  refine ⟨_, _, _, h1, hv, h1', hv', ?_⟩
  intro hash
  refine Reinit.target_refines hm' (by rw [hl']) ?_
  have hmod := Nat.mod_lt hash hM
  unfold Maglev.target
  dsimp only
  rw [if_neg (by omega), List.getElem?_replicate, if_pos hmod]
  rfl

/-- **C84** (partial: as before).  More generally: as long as the dimensions and the size of the file are those of the view, the target of a packet is that of the
table in the file (the `d` that a process would map now, of which C02 to C05 tell how it follows the commands). -/
theorem C84_table_partial (own : Int) (mem : WMem) (d : Mag) (hd : mapMem mem = .ok d) (v : View)
    (hv : v = { pages := Reinit.pages (mem.length + 1), M := d.M, N := d.N }) (hash : Nat) (fw : Int)
    (ht : target d hash = .ok fw) : Reinit.target v (own :: mem) (own :: mem) hash = .ok fw :=
  Reinit.target_refines hd hv ht

/-- A file of a table with 3 slots and 2 targets, of which the second is active with fwmark 9. -/
def riFile : File := [0, 3, 2, 68, 1, 1, 1, 0, 1, 2, 1, 0, 2, -1, 9, 0, 0, 0]

example : mapMem riFile.tail = .ok ⟨3, 2, [1, 1, 1], [[0, 1, 2], [1, 0, 2]], [-1, 9]⟩ ∧
    Reinit.map riFile = .ok { pages := 1, M := 3, N := 2 } ∧
    target ⟨3, 2, [1, 1, 1], [[0, 1, 2], [1, 0, 2]], [-1, 9]⟩ 7 = .ok 9 ∧
    Reinit.target { pages := 1, M := 3, N := 2 } riFile riFile 7 = .ok 9 := by decide +kernel

/-- **C84** (partial: same dimensions, from the end of `memset` on).  In this part of `init` packets are handled without undefined
behaviour, also when `init` goes on between their two loads; but the result may be 0, a fwmark that nobody activated. -/
theorem C84_window_partial (M N : Nat) (h : M * N + M + N + 6 < 2 ^ 30) (hM : 0 < M) (rnd : Nat → Nat) (ps : List (List Int)) (own : Int)
    (hb : Block ps own (dataLen M N / 4)) (v : View) (hv : v = { pages := Reinit.pages (dataLen M N / 4 + 1), M := M, N := N })
    (before : File) (k k' : Nat) (hk : dataLen M N / 4 ≤ k) (hk' : k ≤ k') :
    ∃ f g, Reinit.acts before ((Reinit.initActs ps M N rnd).take (1 + ps.length + k)) = .ok f ∧
      Reinit.acts before ((Reinit.initActs ps M N rnd).take (1 + ps.length + k')) = .ok g ∧
      ∀ hash, Reinit.target v f g hash = .ok 0 ∨ Reinit.target v f g hash = .ok (-1) := by
  obtain ⟨junk, hp, hj⟩ := hb
  have hF : Fits M N := by unfold Fits; omega
  obtain ⟨mem, h1, hl, hlk, _⟩ := Reinit.window_words hF rnd junk hj k hk
  obtain ⟨mem', h1', hl', _, hac⟩ := Reinit.window_words hF rnd junk hj k' (by omega)
  exact ⟨_, _, Reinit.acts_init hp before h1, Reinit.acts_init hp before h1', fun hash =>
    Reinit.target_window hF hM (by omega) (by omega) hlk hac hash hv⟩

/-- The hypotheses of the last theorems are met, e.g. by `init` of 7 slots and 2 targets in two pieces. -/
example : 7 * 2 + 7 + 2 + 6 < 2 ^ 30 ∧ dataLen 7 2 / 4 = 29 ∧
    Block [[5, 1, 2, 3], List.replicate 26 8] 5 (dataLen 7 2 / 4) := by
  refine ⟨by decide, by decide, [1, 2, 3] ++ List.replicate 26 8, by decide, by decide⟩

/-- **C84** After `delete` the running load-balancer goes on with the memory that it has mapped: whatever commands follow (also an `init` with
the same name, which makes a new object), its file is as it was, and so are the targets of all packets. -/
theorem C84_deleted (s : Shm) (name : String) (i : Nat) (hi : i < s.next) (hn : ∀ m, s.name m = some i → m = name)
    (cs : List ShmCmd) (v : View) (hash : Nat) :
    (Reinit.runs s (.delete name :: cs)).file i = s.file i ∧
      Reinit.target v ((Reinit.runs s (.delete name :: cs)).file i) ((Reinit.runs s (.delete name :: cs)).file i) hash =
        Reinit.target v (s.file i) (s.file i) hash := by
  have h : (Reinit.runs s (.delete name :: cs)).file i = s.file i := by
    show (Reinit.runs (Reinit.run s (.delete name)) cs).file i = _
    rw [Reinit.runs_nameless cs (i := i)]
    · rfl
    · refine ⟨hi, ?_⟩
      intro m
      show (if m = name then none else s.name m) ≠ some i
      by_cases hm : m = name
      · rw [if_pos hm]; simp
      · rw [if_neg hm]; intro hc; exact hm (hn m hc)
  exact ⟨h, by rw [h]⟩

/-- Two objects, "a" and "b"; "a" is deleted, initiated again and changed. -/
example : ∃ s : Shm, 0 < s.next ∧ (∀ m, s.name m = some 0 → m = "a") ∧ s.file 0 = riFile ∧
    (Reinit.runs s [.delete "a", .init "a" [1, 2], .config "a" [3]]).file 0 = riFile ∧
    (Reinit.runs s [.delete "a", .init "a" [1, 2], .config "a" [3]]).file 2 = [3] := by
  refine ⟨⟨fun m => if m = "a" then some 0 else if m = "b" then some 1 else none, fun k => if k = 0 then riFile else [], 2⟩,
    by decide, ?_, rfl, rfl, rfl⟩
  intro m hm
  dsimp only at hm
  by_cases h : m = "a"
  · exact h
  · rw [if_neg h] at hm
    split at hm <;> simp at hm

/-- **C84** (partial: the file has as many pages as when it was mapped).  `loadbalancerRelease` unmaps exactly what was mapped. -/
theorem C84_release_partial (v : View) (f : File) (h : Reinit.pages f.length = v.pages) :
    Reinit.unmap v f = { leaked := 0, others := 0 } := by
  unfold Reinit.unmap
  rw [h, Nat.sub_self]

example : Reinit.pages riFile.length = ({ pages := 1, M := 3, N := 2 } : View).pages := by decide

/-- **C84** What `loadbalancerRelease` does if the file has another size than when it was mapped: the pages that the file no longer has stay mapped, and those that it has more are taken from others. -/
theorem C84_release (v : View) (f : File) :
    (Reinit.unmap v f).leaked + min v.pages (Reinit.pages f.length) = v.pages ∧ (Reinit.unmap v f).others + min v.pages (Reinit.pages f.length) = Reinit.pages f.length := by
  unfold Reinit.unmap
  dsimp only
  omega

/-- **C84** A word can be loaded exactly if it is in a page that is mapped and in a page of the file; words of the file are then as in the file. -/
theorem C84_load (v : View) (f : File) (a : Nat) :
    ((∃ x, Reinit.load v f a = .ok x) ↔ a < 1024 * v.pages ∧ a < 1024 * Reinit.pages f.length) ∧ ∀ x y, Reinit.load v f a = .ok x → f[a]? = some y → x = y := by
  unfold Reinit.load Reinit.pageWords
  refine ⟨?_, ?_⟩
  · by_cases h1 : a / 1024 ≥ v.pages
    · rw [if_pos h1]
      exact ⟨(fun ⟨x, h⟩ => by cases h), (fun h => by omega)⟩
    · rw [if_neg h1]
      by_cases h2 : a / 1024 ≥ Reinit.pages f.length
      · rw [if_pos h2]
        exact ⟨(fun ⟨x, h⟩ => by cases h), (fun h => by omega)⟩
      · rw [if_neg h2]
        exact ⟨fun _ => by omega, fun _ => ⟨_, rfl⟩⟩
  · intro x y h hy
    split at h
    · cases h
    split at h
    · cases h
    cases h
    rw [List.getD_eq_getElem?_getD, hy]
    rfl

/-- **C84** is violated: from `shm_open` with `O_TRUNC` until the first words are written, and as long as the words of the page are not written, every packet is
a bus error. This is so for every table, every packet and at each `init`. -/
theorem C84_truncated (v : View) (hash : Nat) (f g : File)
    (h : Reinit.pages f.length ≤ (1 + lookupW (hash % v.M)) / Reinit.pageWords) : Reinit.target v f g hash = .ub := by
  unfold Reinit.target
  by_cases hM : v.M = 0
  · rw [if_pos hM]
  · rw [if_neg hM]
    have : Reinit.load v f (1 + lookupW (hash % v.M)) = .ub := by
      unfold Reinit.load
      split <;> rfl
    rw [this]

/-- The hypothesis is met by the first state of every `init`, and for ever if a table of 5003 slots is replaced by one of 7. -/
example (before : File) (ps : List (List Int)) (M N : Nat) (rnd : Nat → Nat) (v : View) (hash : Nat) :
    Reinit.acts before ((Reinit.initActs ps M N rnd).take 1) = .ok [] ∧ Reinit.target v [] [] hash = .ub :=
  ⟨rfl, C84_truncated v hash [] [] (Nat.zero_le _)⟩

example (f : File) (hf : f.length = 1 + dataLen 7 2 / 4) (hash : Nat) (h : 1020 ≤ hash % 5003) :
    Reinit.target { pages := 10, M := 5003, N := 1 } f f hash = .ub := by
  refine C84_truncated _ _ _ _ ?_
  have e : dataLen 7 2 / 4 = 29 := by decide
  rw [hf, e, lookupW_eq]
  show _ ≤ (1 + (3 + hash % 5003)) / 1024
  have : Reinit.pages (1 + 29) = 1 := by decide
  rw [this]
  omega

/-- The file after `init` of 5 slots and 2 targets and `activate 100`. -/
def riNew : File := [0, 5, 2, 92, 0, 0, 0, 0, 0, 0, 1, 2, 3, 4, 0, 1, 2, 3, 4, 100, -1, 0, 0, 0]

/-- **C84** is violated: (1) after the file is written and before it is zeroed, it holds what `malloc` delivered: a word is taken as an index and
the load is outside of the mapping; (2) after an `init` with other dimensions the load-balancer uses the old ones: with 5 slots instead of 7 packets get fwmark 0, while
the only active target is 100; (3) in the window of `C84_window_partial` fwmark 0 is really used; (4) after an `init` with a larger table,
`loadbalancerRelease` unmaps memory of something else. -/
theorem C84_violated :
    (∃ ps f, Block ps 0 (dataLen 7 2 / 4) ∧
      Reinit.acts [] ((Reinit.initActs ps 7 2 (fun _ => 0)).take 2) = .ok f ∧
      Reinit.target { pages := 1, M := 7, N := 2 } f f 0 = .ub) ∧
    (∃ d0 d, cmdInit 5 2 (fun _ => 0) = .ok d0 ∧ runCmd d0 (.activate [100]) = .ok d ∧ mapMem riNew.tail = .ok d) ∧
    (Reinit.map riNew = .ok { pages := 1, M := 5, N := 2 } ∧
      Reinit.target { pages := 1, M := 5, N := 2 } riNew riNew 0 = .ok 100 ∧
      Reinit.target { pages := 1, M := 7, N := 3 } riNew riNew 0 = .ok 0) ∧
    (∃ ps f, Block ps 0 (dataLen 3 1 / 4) ∧
      Reinit.acts [] ((Reinit.initActs ps 3 1 (fun _ => 0)).take (1 + ps.length + 13)) = .ok f ∧
      Reinit.target { pages := 1, M := 3, N := 1 } f f 0 = .ok 0) ∧
    (∀ f : File, f.length = 1 + dataLen 997 32 / 4 → (Reinit.unmap { pages := 1, M := 7, N := 2 } f).others = 32) := by
  refine ⟨⟨[0 :: List.replicate 29 1000000], 0 :: List.replicate 29 1000000, ⟨List.replicate 29 1000000, by decide, by decide⟩, by decide, by decide +kernel⟩,
    ⟨⟨5, 2, List.replicate 5 (-1), [[0, 1, 2, 3, 4], [0, 1, 2, 3, 4]], [-1, -1]⟩, ⟨5, 2, List.replicate 5 0, [[0, 1, 2, 3, 4], [0, 1, 2, 3, 4]], [100, -1]⟩,
      by decide +kernel, by decide +kernel, by decide +kernel⟩, by decide +kernel, ⟨[0 :: List.replicate 13 7], 0 :: List.replicate 13 0, ⟨List.replicate 13 7, by decide, by decide⟩, by decide +kernel, by decide +kernel⟩, ?_⟩
  intro f hf
  unfold Reinit.unmap
  rw [hf]
  decide

end Nfqlb.Props
