import Verif.Model.Reinit
import Verif.Proof.MaglevMem

/-! Lemmas about shared memory that is initiated again. -/

set_option autoImplicit false

namespace Nfqlb.Reinit

open Nfqlb Maglev

theorem acts_append (as bs : List Act) : ∀ (f f' : File), acts f as = .ok f' → acts f (as ++ bs) = acts f' bs := by
  induction as with
  | nil => intro f f' h; unfold acts at h; injection h with h; subst h; rfl
  | cons a as ih =>
    intro f f' h
    unfold acts at h
    rw [List.cons_append]
    conv => lhs; unfold acts
    cases ha : act f a with
    | ok g => rw [ha] at h; exact ih g f' h
    | die => rw [ha] at h; simp at h
    | ub => rw [ha] at h; simp at h
    | hang => rw [ha] at h; simp at h

theorem acts_writes (ps : List (List Int)) : ∀ f : File, acts f (ps.map .write) = .ok (f ++ ps.flatten) := by
  induction ps with
  | nil => intro f; simp [acts]
  | cons p ps ih =>
    intro f
    rw [List.map_cons]
    unfold acts
    dsimp only [act]
    rw [ih, List.flatten_cons, List.append_assoc]

theorem acts_created (ps : List (List Int)) (f : File) : acts f (.trunc :: ps.map .write) = .ok ps.flatten := by
  unfold acts
  dsimp only [act]
  rw [acts_writes, List.nil_append]

theorem acts_stores (own : Int) (ss : List WStore) : ∀ (mem mem' : WMem), wrun mem ss = .ok mem' →
    acts (own :: mem) (ss.map (fun s => .store (1 + s.1) s.2)) = .ok (own :: mem') := by
  induction ss with
  | nil => intro mem mem' h; unfold wrun at h; injection h with h; subst h; rfl
  | cons s ss ih =>
    intro mem mem' h
    obtain ⟨a, v⟩ := s
    unfold wrun at h
    split at h
    · rename_i hlt
      rw [List.map_cons]
      unfold acts
      have e : act (own :: mem) (.store (1 + a) v) = .ok (own :: mem.set a v) := by
        unfold act
        dsimp only
        rw [if_pos (by simp only [List.length_cons]; omega), Nat.add_comm 1 a, List.set_cons_succ]
      rw [e]
      exact ih _ _ h
    · simp at h

/-- The file that a (complete or interrupted) `init` leaves. -/
theorem acts_init {ps : List (List Int)} {own : Int} {junk : WMem} (hp : ps.flatten = own :: junk) {M N : Nat} {rnd : Nat → Nat}
    (f : File) {k : Nat} {mem : WMem} (h : wrun junk ((initStores M N rnd).take k) = .ok mem) :
    acts f ((initActs ps M N rnd).take (1 + ps.length + k)) = .ok (own :: mem) := by
  unfold initActs
  have hl : (.trunc :: ps.map Act.write : List Act).length = 1 + ps.length := by simp; omega
  rw [← hl, List.take_length_add_append, acts_append _ _ f _ (acts_created ps f), hp, ← List.map_take]
  exact acts_stores own _ _ _ h

theorem acts_init_all {ps : List (List Int)} {own : Int} {junk : WMem} (hp : ps.flatten = own :: junk) {M N : Nat} {rnd : Nat → Nat}
    (f : File) {mem : WMem} (h : wrun junk (initStores M N rnd) = .ok mem) :
    acts f (initActs ps M N rnd) = .ok (own :: mem) := by
  have h' := acts_init hp f (k := (initStores M N rnd).length) (by rw [List.take_length]; exact h)
  rwa [List.take_of_length_le] at h'
  unfold initActs
  simp
  omega

theorem page_in {a n : Nat} (h : a < n) : a / pageWords < pages n := by
  unfold pages pageWords; omega

theorem load_in {v : View} {f : File} {a : Nat} (hv : v.pages = pages f.length) (h : a < f.length) :
    load v f a = .ok (f.getD a 0) := by
  have := page_in h
  unfold load
  rw [if_neg (by omega), if_neg (by omega)]

theorem mapM_get {α β : Type} (g : α → Option β) : ∀ (l : List α) (r : List β), l.mapM g = some r →
    ∀ (i : Nat) (x : α), l[i]? = some x → g x = r[i]? ∧ i < r.length := by
  intro l
  induction l with
  | nil => intro r _ i x hx; simp at hx
  | cons y l ih =>
    intro r h i x hx
    rw [List.mapM_cons] at h
    cases hy : g y with
    | none => rw [hy] at h; simp at h
    | some b =>
      cases hr : l.mapM g with
      | none => rw [hy, hr] at h; simp at h
      | some bs =>
        rw [hy, hr] at h
        simp at h
        subst h
        cases i with
        | zero => simp at hx; subst hx; exact ⟨by simp [hy], by simp⟩
        | succ i =>
          have := ih bs hr i x (by simpa using hx)
          exact ⟨by simpa using this.1, by simpa using this.2⟩

theorem mapMem_parts {mem : WMem} {d : Mag} (h : mapMem mem = .ok d) :
    d.M = (mem.getD 0 0 % 4294967296).toNat ∧ d.N = (mem.getD 1 0 % 4294967296).toNat ∧
    (∀ c, c < d.M → mem[lookupW c]? = d.lookup[c]?) ∧ (∀ i, i < d.N → mem[activeW d.M d.N i]? = d.active[i]?) ∧
      d.active.length = d.N := by
  unfold mapMem at h
  cases h0 : mem[0]? with
  | none => rw [h0] at h; simp at h
  | some m =>
    cases h1 : mem[1]? with
    | none => rw [h0, h1] at h; simp at h
    | some n =>
      rw [h0, h1] at h
      dsimp only at h
      split at h
      · rename_i l p a hl hp ha
        injection h with h
        subst h
        refine ⟨by simp [h0], by simp [h1], ?_, ?_, ?_⟩
        · intro c hc
          exact (mapM_get _ _ _ hl c c (by rw [List.getElem?_range hc])).1
        · intro i hi
          exact (mapM_get _ _ _ ha i i (by rw [List.getElem?_range hi])).1
        · have : ∀ {α β : Type} (g : α → Option β) (l : List α) (r : List β), l.mapM g = some r → r.length = l.length := by
            intro α β g l
            induction l with
            | nil => intro r h; simp at h; subst h; rfl
            | cons y l ih =>
              intro r h
              rw [List.mapM_cons] at h
              cases hy : g y with
              | none => rw [hy] at h; simp at h
              | some b =>
                cases hr : l.mapM g with
                | none => rw [hy, hr] at h; simp at h
                | some bs =>
                  rw [hy, hr] at h
                  simp at h
                  subst h
                  simp [ih bs hr]
          simpa using this _ _ _ ha
      · simp at h

/-- A view of the right dimensions shows the table that is in the file. -/
theorem target_refines {v : View} {own : Int} {mem : WMem} {d : Mag} (hd : mapMem mem = .ok d)
    (hv : v = { pages := pages (mem.length + 1), M := d.M, N := d.N }) {hash : Nat} {r : Int}
    (h : Maglev.target d hash = .ok r) : target v (own :: mem) (own :: mem) hash = .ok r := by
  obtain ⟨_, _, hl, ha, _⟩ := mapMem_parts hd
  unfold Maglev.target at h
  unfold target
  subst hv
  dsimp only
  by_cases hM : d.M = 0
  · rw [if_pos hM] at h; simp at h
  · rw [if_neg hM] at h
    rw [if_neg hM]
    have hc := hl (hash % d.M) (Nat.mod_lt _ (by omega))
    cases hlk : d.lookup[hash % d.M]? with
    | none => rw [hlk] at h; simp at h
    | some x =>
      rw [hlk] at h hc
      have hlt : lookupW (hash % d.M) < mem.length := by
        rcases Nat.lt_or_ge (lookupW (hash % d.M)) mem.length with h' | h'
        · exact h'
        · rw [List.getElem?_eq_none h'] at hc; simp at hc
      rw [load_in (by simp) (by simp; omega)]
      have e : (own :: mem).getD (1 + lookupW (hash % d.M)) 0 = x := by
        rw [Nat.add_comm, List.getD_eq_getElem?_getD, List.getElem?_cons_succ, hc]; rfl
      rw [e]
      dsimp only at h ⊢
      split at h
      · rename_i hx
        rw [if_pos hx]
        cases hak : d.active[x.toNat]? with
        | none => rw [hak] at h; simp at h
        | some y =>
          rw [hak] at h
          injection h with h
          subst h
          have hxn : x.toNat < d.N := by
            have hlen := (mapMem_parts hd).2.2.2.2
            rcases Nat.lt_or_ge x.toNat d.active.length with h' | h'
            · omega
            · rw [List.getElem?_eq_none h'] at hak; simp at hak
          have hc2 := ha x.toNat hxn
          rw [hak] at hc2
          have hlt2 : activeW d.M d.N x.toNat < mem.length := by
            rcases Nat.lt_or_ge (activeW d.M d.N x.toNat) mem.length with h' | h'
            · exact h'
            · rw [List.getElem?_eq_none h'] at hc2; simp at hc2
          rw [load_in (by simp) (by simp; omega), Nat.add_comm, List.getD_eq_getElem?_getD, List.getElem?_cons_succ, hc2]
          rfl
      · rename_i hx
        rw [if_neg hx]
        injection h with h
        subst h
        rfl

/-- A word has its old value or one that was stored there. -/
theorem app_mem (ss : List WStore) : ∀ (m : Nat → Int) (a : Nat),
    app m ss a = m a ∨ ∃ s ∈ ss, s.1 = a ∧ app m ss a = s.2 := by
  induction ss with
  | nil => intro m a; exact .inl rfl
  | cons s ss ih =>
    intro m a
    have e : app m (s :: ss) a = app (fun k => if k = s.1 then s.2 else m k) ss a := rfl
    rw [e]
    rcases ih (fun k => if k = s.1 then s.2 else m k) a with h | ⟨t, ht, h1, h2⟩
    · rw [h]
      by_cases ha : a = s.1
      · right; exact ⟨s, List.mem_cons_self .., ha.symm, by rw [if_pos ha]⟩
      · left; rw [if_neg ha]
    · right; exact ⟨t, List.mem_cons_of_mem _ ht, h1, h2⟩

/-- The words that a reader uses once the memory is zeroed: each lookup slot and the first active slot hold 0 or -1. -/
theorem window_words {M N : Nat} (h : Fits M N) (rnd : Nat → Nat) (junk : WMem)
    (hj : junk.length = dataLen M N / 4) (k : Nat) (hk : dataLen M N / 4 ≤ k) :
    ∃ mem, wrun junk ((initStores M N rnd).take k) = .ok mem ∧ mem.length = junk.length ∧
      (∀ c, c < M → mem.getD (lookupW c) 0 = 0 ∨ mem.getD (lookupW c) 0 = -1) ∧
      (mem.getD (activeW M N 0) 0 = 0 ∨ mem.getD (activeW M N 0) 0 = -1) := by
  have hd := dataLen_eq h
  have hc : N * M = M * N := Nat.mul_comm _ _
  have hrow : ∀ i, i < N → (i + 1) * M ≤ N * M := fun i hi => Nat.mul_le_mul_right _ hi
  have hs : ∀ i, (i + 1) * M = i * M + M := fun i => by rw [Nat.succ_mul]
  have hlen : dataLen M N / 4 = 6 + M * N + M + N := by rw [hd]; omega
  obtain ⟨mem, hrun, hl, hrd⟩ := wrun_ok ((initStores M N rnd).take k) junk (by
    rw [hj]
    intro s hs'
    exact initStores_in h rnd s (List.mem_of_mem_take hs'))
  refine ⟨mem, hrun, hl, ?_⟩
  -- the stores after the first ones
  have hsplit : ∃ rest : List WStore, (initStores M N rnd).take k = memsetStores (dataLen M N / 4) ++ rest ∧
      ∀ s ∈ rest, s ∈ headerStores M N (dataLen M N) ++
        ((List.range N).flatMap (targetStores M N rnd) ++ clearLookupStores M) := by
    refine ⟨(headerStores M N (dataLen M N) ++
        ((List.range N).flatMap (targetStores M N rnd) ++ clearLookupStores M)).take (k - dataLen M N / 4), ?_, ?_⟩
    · unfold initStores
      rw [List.append_assoc, List.append_assoc]
      have e : k = (memsetStores (dataLen M N / 4)).length + (k - dataLen M N / 4) := by
        simp [memsetStores]; omega
      conv => lhs; rw [e]
      rw [List.take_length_add_append]
    · intro s hs'; exact List.mem_of_mem_take hs'
  obtain ⟨rest, hre, hrest⟩ := hsplit
  have hval : ∀ a, 3 ≤ a → a < dataLen M N / 4 →
      mem.getD a 0 = 0 ∨ ∃ s ∈ rest, s.1 = a ∧ mem.getD a 0 = s.2 := by
    intro a ha ha'
    have e := hrd a (by rw [hj]; exact ha')
    rw [List.getD_eq_getElem?_getD, e, hre, app_append]
    dsimp only [Option.getD_some]
    rcases app_mem rest (app (fun k => junk.getD k 0) (memsetStores (dataLen M N / 4))) a with h' | h'
    · left
      rw [h']
      unfold memsetStores
      have := app_range (fun k => junk.getD k 0) 0 (fun _ => 0) (dataLen M N / 4) a
      simp only [Nat.zero_add] at this
      rw [this, if_pos (by omega)]
    · right; exact h'
  constructor
  · intro c hcM
    rw [lookupW_eq]
    rcases hval (3 + c) (by omega) (by omega) with h' | ⟨s, hs', h1, h2⟩
    · exact .inl h'
    · right
      rw [h2]
      have hm := hrest s hs'
      simp only [List.mem_append, headerStores, clearLookupStores, List.mem_map, List.mem_range, List.mem_flatMap,
        targetStores, List.mem_cons, List.not_mem_nil, or_false] at hm
      rcases hm with (rfl | rfl | rfl) | ⟨i, hi, (⟨j, hj', rfl⟩ | rfl)⟩ | ⟨c', hc', rfl⟩
      · simp only at h1; omega
      · simp only at h1; omega
      · simp only at h1; omega
      · simp only at h1; rw [permW_eq h hi] at h1; omega
      · rfl
      · rfl
  · rw [activeW_eq h]
    rcases hval (3 + M + N * M + 0) (by omega) (by omega) with h' | ⟨s, hs', h1, h2⟩
    · exact .inl h'
    · right
      rw [h2]
      have hm := hrest s hs'
      simp only [List.mem_append, headerStores, clearLookupStores, List.mem_map, List.mem_range, List.mem_flatMap,
        targetStores, List.mem_cons, List.not_mem_nil, or_false] at hm
      rcases hm with (rfl | rfl | rfl) | ⟨i, hi, (⟨j, hj', rfl⟩ | rfl)⟩ | ⟨c', hc', rfl⟩
      · simp only at h1; omega
      · simp only at h1; omega
      · simp only at h1; omega
      · simp only at h1
        rw [permW_eq h hi] at h1
        have := hrow i hi; have := hs i
        omega
      · rfl
      · rfl

/-- While the lookup slots and the first active slot hold 0 or -1, a packet gets 0 or -1. -/
theorem target_window {M N : Nat} (h : Fits M N) (hM : 0 < M) {own own' : Int} {mem mem' : WMem} (hl : mem.length = dataLen M N / 4)
    (hl' : mem'.length = dataLen M N / 4)
    (hlk : ∀ c, c < M → mem.getD (lookupW c) 0 = 0 ∨ mem.getD (lookupW c) 0 = -1)
    (hac : mem'.getD (activeW M N 0) 0 = 0 ∨ mem'.getD (activeW M N 0) 0 = -1) (hash : Nat) {v : View}
    (hv : v = { pages := pages (dataLen M N / 4 + 1), M := M, N := N }) :
    target v (own :: mem) (own' :: mem') hash = .ok 0 ∨ target v (own :: mem) (own' :: mem') hash = .ok (-1) := by
  have hd := dataLen_eq h
  have hlen : dataLen M N / 4 = 6 + M * N + M + N := by rw [hd]; omega
  have hc : N * M = M * N := Nat.mul_comm _ _
  have hmod := Nat.mod_lt hash hM
  subst hv
  unfold target
  dsimp only
  rw [if_neg (by omega), load_in (by simp [hl]) (by rw [lookupW_eq]; simp only [List.length_cons]; omega), Nat.add_comm 1,
    List.getD_cons_succ]
  rcases hlk (hash % M) hmod with h' | h' <;> rw [h'] <;> dsimp only
  · rw [if_pos (by decide)]
    show load _ _ (1 + activeW M N 0) = _ ∨ load _ _ (1 + activeW M N 0) = _
    rw [load_in (by simp [hl']) (by rw [activeW_eq h]; simp only [List.length_cons]; omega), Nat.add_comm 1, List.getD_cons_succ]
    rcases hac with h' | h' <;> rw [h']
    · exact .inl rfl
    · exact .inr rfl
  · rw [if_neg (by decide)]
    exact .inr rfl

/-! ### Objects without a name -/

/-- No name stands for object `i`, and it exists. -/
def Nameless (s : Shm) (i : Nat) : Prop := i < s.next ∧ ∀ n, s.name n ≠ some i

theorem run_nameless {s : Shm} {i : Nat} (h : Nameless s i) (c : ShmCmd) :
    Nameless (run s c) i ∧ (run s c).file i = s.file i := by
  obtain ⟨h1, h2⟩ := h
  have hsome : ∀ (n : String) (j : Nat) (f : File), s.name n = some j →
      Nameless { s with file := fun k => if k = j then f else s.file k } i ∧
        (fun k => if k = j then f else s.file k) i = s.file i := by
    intro n j f hn
    refine ⟨⟨h1, h2⟩, if_neg ?_⟩
    intro hc; subst hc; exact h2 n hn
  cases c with
  | init n f =>
    cases hn : s.name n with
    | some j => simp only [run, hn]; exact hsome n j f hn
    | none =>
      simp only [run, hn]
      refine ⟨⟨by show i < s.next + 1; omega, ?_⟩, if_neg (by omega)⟩
      intro m
      dsimp only
      by_cases hm : m = n
      · rw [if_pos hm]; intro hc; injection hc with hc; omega
      · rw [if_neg hm]; exact h2 m
  | config n f =>
    cases hn : s.name n with
    | some j => simp only [run, hn]; exact hsome n j f hn
    | none => simp only [run, hn]; exact ⟨⟨h1, h2⟩, trivial⟩
  | delete n =>
    simp only [run]
    refine ⟨⟨h1, ?_⟩, trivial⟩
    intro m
    dsimp only
    by_cases hm : m = n
    · rw [if_pos hm]; simp
    · rw [if_neg hm]; exact h2 m

theorem runs_nameless (cs : List ShmCmd) : ∀ {s : Shm} {i : Nat}, Nameless s i → (runs s cs).file i = s.file i := by
  induction cs with
  | nil => intro s i _; rfl
  | cons c cs ih =>
    intro s i h
    obtain ⟨h1, h2⟩ := run_nameless h c
    show (runs (run s c) cs).file i = _
    rw [ih h1, h2]

end Nfqlb.Reinit
