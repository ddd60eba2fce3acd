import Verif.Spec.MaglevMem
import Verif.Proof.MaglevConfig

set_option autoImplicit false

namespace Nfqlb.Maglev

open Spec

theorem u32_id {x : Nat} (h : x < 4294967296) : u32 x = x := Nat.mod_eq_of_lt h

/-- No wrap-around anywhere. -/
def Fits (M N : Nat) : Prop := 6 + M * N + M + N < 2 ^ 30

theorem rowOffset_eq {M N : Nat} (h : Fits M N) : ∀ i, i ≤ N → rowOffset M i = 12 + 4 * M + 4 * (i * M) := by
  unfold Fits at h
  intro i
  induction i with
  | zero => intro _; unfold rowOffset headerSize; rw [u32_id (by omega)]; omega
  | succ i ih =>
    intro hi
    unfold rowOffset
    rw [ih (by omega)]
    have h1 : (i + 1) * M ≤ N * M := Nat.mul_le_mul_right _ hi
    have h2 : (i + 1) * M = i * M + M := by rw [Nat.succ_mul]
    have h3 : N * M = M * N := Nat.mul_comm _ _
    rw [u32_id (by omega)]
    omega

theorem dataLen_eq {M N : Nat} (h : Fits M N) : dataLen M N = 4 * (6 + M * N + M + N) := by
  unfold Fits at h
  unfold dataLen headerSize
  rw [u32_id (x := M * N) (by omega), u32_id (x := 3 + M * N) (by omega), u32_id (x := M + N) (by omega)]
  unfold u64
  rw [Nat.mod_eq_of_lt (by omega), u32_id (by omega)]
  omega

theorem activeOffset_eq {M N : Nat} (h : Fits M N) : activeOffset M N = 12 + 4 * M + 4 * (N * M) :=
  rowOffset_eq h N (Nat.le_refl _)

theorem layout_ok {M N : Nat} (h : Fits M N) :
    (∀ r ∈ regions M N, InMemory (dataLen M N) r) ∧ (regions M N).Pairwise DisjointRegions := by
  have hd := dataLen_eq h
  have ha := activeOffset_eq h
  have hc : N * M = M * N := Nat.mul_comm _ _
  have hrow : ∀ i, i < N → (i + 1) * M ≤ N * M := fun i hi => Nat.mul_le_mul_right _ hi
  have hs : ∀ i, (i + 1) * M = i * M + M := fun i => by rw [Nat.succ_mul]
  constructor
  · intro r hr x h1 h2
    unfold regions at hr
    simp only [List.cons_append, List.nil_append, List.mem_cons, List.mem_append, List.mem_map,
      List.mem_range, List.not_mem_nil, or_false] at hr
    rcases hr with rfl | rfl | ⟨i, hi, rfl⟩ | rfl
    · simp only [headerSize] at h1 h2; omega
    · simp only [lookupOffset, headerSize] at h1 h2; omega
    · simp only at h1 h2
      rw [rowOffset_eq h i (by omega)] at h1 h2
      have := hrow i hi; have := hs i
      omega
    · simp only at h1 h2
      rw [ha] at h1 h2
      omega
  · unfold regions
    simp only [List.cons_append, List.nil_append, List.pairwise_cons, List.pairwise_append,
      List.mem_cons, List.mem_append, List.mem_map, List.mem_range, List.not_mem_nil, or_false]
    refine ⟨?_, ?_, ?_, ?_, ?_⟩
    · rintro r (rfl | ⟨i, hi, rfl⟩ | rfl) x ⟨⟨a1, a2⟩, b1, b2⟩
      · simp only [lookupOffset, headerSize] at a1 a2 b1 b2; omega
      · simp only [headerSize] at a1 a2 b1 b2
        rw [rowOffset_eq h i (by omega)] at b1
        omega
      · simp only [headerSize] at a1 a2 b1 b2
        rw [ha] at b1; omega
    · rintro r (⟨i, hi, rfl⟩ | rfl) x ⟨⟨a1, a2⟩, b1, b2⟩
      · simp only [lookupOffset, headerSize] at a1 a2 b1 b2
        rw [rowOffset_eq h i (by omega)] at b1
        omega
      · simp only [lookupOffset, headerSize] at a1 a2 b1 b2
        rw [ha] at b1; omega
    · rw [List.pairwise_map]
      refine List.Pairwise.imp_of_mem ?_ List.pairwise_lt_range
      rintro i j hi hj hij x ⟨⟨a1, a2⟩, b1, b2⟩
      rw [List.mem_range] at hi hj
      simp only at a1 a2 b1 b2
      rw [rowOffset_eq h i (by omega)] at a1 a2
      rw [rowOffset_eq h j (by omega)] at b1
      have h1 : (i + 1) * M ≤ j * M := Nat.mul_le_mul_right _ hij
      have := hs i
      omega
    · exact ⟨by simp, List.Pairwise.nil⟩
    · rintro _ ⟨i, hi, rfl⟩ r rfl x ⟨⟨a1, a2⟩, b1, b2⟩
      simp only at a1 a2 b1 b2
      rw [rowOffset_eq h i (by omega)] at a1 a2
      rw [ha] at b1
      have := hrow i hi; have := hs i
      omega

/-! ### The stores of `init` -/

/-- Stores as updates of a function. -/
def app (m : Nat → Int) (ss : List WStore) : Nat → Int :=
  ss.foldl (fun m s a => if a = s.1 then s.2 else m a) m

theorem app_append (m : Nat → Int) (a b : List WStore) : app m (a ++ b) = app (app m a) b := by
  unfold app; rw [List.foldl_append]

theorem wrun_ok (ss : List WStore) : ∀ (mem : WMem), (∀ s ∈ ss, s.1 < mem.length) →
    ∃ mem', wrun mem ss = .ok mem' ∧ mem'.length = mem.length ∧
      ∀ (a : Nat), a < mem.length → mem'[a]? = some (app (fun k => mem.getD k 0) ss a) := by
  induction ss with
  | nil =>
    intro mem _
    refine ⟨mem, rfl, rfl, ?_⟩
    intro a ha
    simp [app, ha]
  | cons s ss ih =>
    intro mem h
    obtain ⟨a, v⟩ := s
    have ha : a < mem.length := h (a, v) (by simp)
    obtain ⟨mem', h1, h2, h3⟩ := ih (mem.set a v) (by
      intro s hs; simp only [List.length_set]; exact h s (by simp [hs]))
    refine ⟨mem', ?_, by simpa using h2, ?_⟩
    · unfold wrun; rw [if_pos ha]; exact h1
    · intro x hx
      rw [h3 x (by simpa using hx)]
      have : (fun k => (mem.set a v).getD k 0) = fun k => if k = a then v else mem.getD k 0 := by
        funext k
        by_cases hk : k = a
        · subst hk; simp [ha]
        · simp [hk, Ne.symm hk]
      rw [this]
      rfl

theorem app_range (m : Nat → Int) (b : Nat) (f : Nat → Int) (n a : Nat) :
    app m ((List.range n).map (fun j => (b + j, f j))) a =
      if b ≤ a ∧ a < b + n then f (a - b) else m a := by
  induction n with
  | zero => simp [app]
  | succ n ih =>
    rw [List.range_succ, List.map_append, app_append]
    simp only [List.map_cons, List.map_nil]
    have : ∀ m' : Nat → Int, app m' [(b + n, f n)] a = if a = b + n then f n else m' a := fun m' => rfl
    rw [this, ih]
    by_cases h1 : a = b + n
    · subst h1
      rw [if_pos rfl, if_pos (by omega)]
      congr 1; omega
    · rw [if_neg h1]
      by_cases h2 : b ≤ a ∧ a < b + n
      · rw [if_pos h2, if_pos (by omega)]
      · rw [if_neg h2, if_neg (by omega)]

theorem permW_eq {M N : Nat} (h : Fits M N) {i : Nat} (hi : i < N) (j : Nat) :
    permW M i j = (3 + M + i * M) + j := by
  unfold permW; rw [rowOffset_eq h i (by omega)]; omega

theorem activeW_eq {M N : Nat} (h : Fits M N) (i : Nat) : activeW M N i = 3 + M + N * M + i := by
  unfold activeW; rw [activeOffset_eq h]; omega

theorem lookupW_eq (c : Nat) : lookupW c = 3 + c := by unfold lookupW lookupOffset headerSize; omega

theorem app_target {M N : Nat} (h : Fits M N) (rnd : Nat → Nat) {i : Nat} (hi : i < N) (m : Nat → Int) (a : Nat) :
    app m (targetStores M N rnd i) a =
      if a = 3 + M + N * M + i then -1
      else if 3 + M + i * M ≤ a ∧ a < 3 + M + i * M + M then (((randRow M rnd i).getD (a - (3 + M + i * M)) 0 : Nat) : Int)
      else m a := by
  unfold targetStores
  rw [app_append]
  simp only [permW_eq h hi]
  have : ∀ m' : Nat → Int, app m' [(activeW M N i, (-1 : Int))] a = if a = activeW M N i then -1 else m' a := fun m' => rfl
  rw [this, activeW_eq h, app_range m (3 + M + i * M) (fun j => (((randRow M rnd i).getD j 0 : Nat) : Int))]

theorem app_targets {M N : Nat} (h : Fits M N) (rnd : Nat → Nat) (m : Nat → Int) (k : Nat) (hk : k ≤ N) :
    (∀ i, i < k → app m ((List.range k).flatMap (targetStores M N rnd)) (3 + M + N * M + i) = -1) ∧
    (∀ i j, i < k → j < M → app m ((List.range k).flatMap (targetStores M N rnd)) (3 + M + i * M + j)
        = (((randRow M rnd i).getD j 0 : Nat) : Int)) ∧
    (∀ a, a < 3 + M → app m ((List.range k).flatMap (targetStores M N rnd)) a = m a) := by
  have hrow : ∀ i, i < N → (i + 1) * M ≤ N * M := fun i hi => Nat.mul_le_mul_right _ hi
  have hs : ∀ i, (i + 1) * M = i * M + M := fun i => by rw [Nat.succ_mul]
  induction k with
  | zero => simp [app]
  | succ k ih =>
    obtain ⟨h1, h2, h3⟩ := ih (by omega)
    rw [List.range_succ, List.flatMap_append, app_append, List.flatMap_singleton]
    have := hrow k (by omega); have := hs k
    refine ⟨?_, ?_, ?_⟩
    · intro i hi
      rw [app_target h rnd (by omega)]
      by_cases hik : i = k
      · subst hik; rw [if_pos rfl]
      · rw [if_neg (by omega), if_neg (by omega)]
        exact h1 i (by omega)
    · intro i j hi hj
      rw [app_target h rnd (by omega)]
      have := hrow i (by omega); have := hs i
      rw [if_neg (by omega)]
      by_cases hik : i = k
      · subst hik
        rw [if_pos (by omega)]
        congr 2; omega
      · have : (i + 1) * M ≤ k * M := Nat.mul_le_mul_right _ (by omega)
        rw [if_neg (by omega)]
        exact h2 i j (by omega) hj
    · intro a ha
      rw [app_target h rnd (by omega), if_neg (by omega), if_neg (by omega)]
      exact h3 a ha

theorem mapM_some {α β : Type} (f : α → Option β) (g : α → β) (l : List α) (h : ∀ x ∈ l, f x = some (g x)) :
    l.mapM f = some (l.map g) := by
  induction l with
  | nil => rfl
  | cons x xs ih =>
    rw [List.mapM_cons, h x (by simp), ih (fun y hy => h y (by simp [hy]))]
    rfl

theorem initStores_in {M N : Nat} (h : Fits M N) (rnd : Nat → Nat) :
    ∀ s ∈ initStores M N rnd, s.1 < dataLen M N / 4 := by
  have hd := dataLen_eq h
  have hc : N * M = M * N := Nat.mul_comm _ _
  have hrow : ∀ i, i < N → (i + 1) * M ≤ N * M := fun i hi => Nat.mul_le_mul_right _ hi
  have hs : ∀ i, (i + 1) * M = i * M + M := fun i => by rw [Nat.succ_mul]
  intro s hmem
  unfold initStores at hmem
  simp only [List.mem_append, memsetStores, headerStores, clearLookupStores, List.mem_map, List.mem_range,
    List.mem_flatMap, targetStores, List.mem_cons, List.not_mem_nil, or_false] at hmem
  rw [hd]
  rcases hmem with ((⟨a, ha, rfl⟩ | rfl | rfl | rfl) | ⟨i, hi, (⟨j, hj, rfl⟩ | rfl)⟩) | ⟨c, hc', rfl⟩
  · simp only; rw [hd] at ha; exact ha
  · simp only; omega
  · simp only; omega
  · simp only; omega
  · simp only; rw [permW_eq h hi]
    have := hrow i hi; have := hs i
    omega
  · simp only; rw [activeW_eq h]; omega
  · simp only; rw [lookupW_eq]; omega

/-- The stores of `init` up to and including the first `q` of the final loop. -/
def initStoresQ (M N : Nat) (rnd : Nat → Nat) (q : Nat) : List WStore :=
  memsetStores (dataLen M N / 4) ++ headerStores M N (dataLen M N) ++
    (List.range N).flatMap (targetStores M N rnd) ++ (List.range q).map (fun c => (lookupW c, -1))

/-- Mapping the memory after the stores of `init` but with the last loop interrupted. -/
theorem init_mem_q {M N : Nat} (h : Fits M N) (hM : 0 < M) (rnd : Nat → Nat) (junk : WMem)
    (hj : junk.length = dataLen M N / 4) (q : Nat) (hq : q ≤ M) :
    ∃ mem, wrun junk (initStoresQ M N rnd q) = .ok mem ∧
      mapMem mem = .ok ⟨M, N, (List.range M).map (fun c => if c < q then -1 else 0),
        (List.range N).map (randRow M rnd), List.replicate N (-1)⟩ := by
  have hd := dataLen_eq h
  have hc : N * M = M * N := Nat.mul_comm _ _
  have hrow : ∀ i, i < N → (i + 1) * M ≤ N * M := fun i hi => Nat.mul_le_mul_right _ hi
  have hs : ∀ i, (i + 1) * M = i * M + M := fun i => by rw [Nat.succ_mul]
  have hlen : dataLen M N / 4 = 6 + M * N + M + N := by rw [hd]; omega
  have hF : 6 + M * N + M + N < 2 ^ 30 := h
  obtain ⟨mem, hrun, hl, hrd⟩ := wrun_ok (initStoresQ M N rnd q) junk (by
    rw [hj]
    intro s hs'
    refine initStores_in h rnd s ?_
    unfold initStores clearLookupStores
    unfold initStoresQ at hs'
    rcases List.mem_append.1 hs' with hs' | hs'
    · exact List.mem_append_left _ hs'
    · apply List.mem_append_right
      simp only [List.mem_map, List.mem_range] at hs' ⊢
      obtain ⟨c, hcq, rfl⟩ := hs'
      exact ⟨c, by omega, rfl⟩)
  refine ⟨mem, hrun, ?_⟩
  rw [hj, hlen] at hl
  -- final contents
  have hfin : ∀ a m, app m (initStoresQ M N rnd q) a =
      if 3 ≤ a ∧ a < 3 + q then -1 else
        app (app m (memsetStores (dataLen M N / 4) ++ headerStores M N (dataLen M N)))
          ((List.range N).flatMap (targetStores M N rnd)) a := by
    intro a m
    unfold initStoresQ
    rw [app_append, app_append]
    simp only [lookupW_eq]
    rw [app_range _ 3 (fun _ => -1) q a]
  have hhead : ∀ m a, app m (memsetStores (dataLen M N / 4) ++ headerStores M N (dataLen M N)) a =
      if a = 2 then (dataLen M N : Int) else if a = 1 then (N : Int) else if a = 0 then (M : Int) else
        app m (memsetStores (dataLen M N / 4)) a := by
    intro m a
    rw [app_append]; rfl
  rw [hj, hlen] at hrd
  have rd : ∀ a, a < 6 + M * N + M + N → mem[a]? = some (app (fun k => junk.getD k 0) (initStoresQ M N rnd q) a) := hrd
  obtain ⟨t1, t2, t3⟩ := app_targets h rnd (app (fun k => junk.getD k 0)
    (memsetStores (dataLen M N / 4) ++ headerStores M N (dataLen M N))) N (Nat.le_refl _)
  have e0 : mem[0]? = some (M : Int) := by
    rw [rd 0 (by omega), hfin, if_neg (by omega), t3 0 (by omega), hhead]; rfl
  have e1 : mem[1]? = some (N : Int) := by
    rw [rd 1 (by omega), hfin, if_neg (by omega), t3 1 (by omega), hhead]; rfl
  have hzero : ∀ m a, 3 ≤ a → a < dataLen M N / 4 →
      app m (memsetStores (dataLen M N / 4) ++ headerStores M N (dataLen M N)) a = 0 := by
    intro m a ha ha'
    rw [hhead, if_neg (by omega), if_neg (by omega), if_neg (by omega)]
    unfold memsetStores
    have := app_range m 0 (fun _ => 0) (dataLen M N / 4) a
    simp only [Nat.zero_add] at this
    rw [this, if_pos (by omega)]
  have eL : ∀ c, c < M → mem[lookupW c]? = some (if c < q then -1 else 0) := by
    intro c hcM
    rw [lookupW_eq, rd _ (by omega), hfin]
    by_cases hcq : c < q
    · rw [if_pos (by omega), if_pos hcq]
    · rw [if_neg (by omega), if_neg hcq, t3 _ (by omega), hzero _ _ (by omega) (by omega)]
  have eP : ∀ i j, i < N → j < M → mem[permW M i j]? = some (((randRow M rnd i).getD j 0 : Nat) : Int) := by
    intro i j hi hj'
    have := hrow i hi; have := hs i
    rw [permW_eq h hi, rd _ (by omega), hfin, if_neg (by omega), t2 i j hi hj']
  have eA : ∀ i, i < N → mem[activeW M N i]? = some (-1) := by
    intro i hi
    rw [activeW_eq h, rd _ (by omega), hfin, if_neg (by omega), t1 i hi]
  have hM' : M ≤ M * N + M := by omega
  unfold mapMem
  rw [e0, e1]
  have m1 : (((M : Int)) % 4294967296).toNat = M := by omega
  have m2 : (((N : Int)) % 4294967296).toNat = N := by omega
  simp only [m1, m2]
  rw [mapM_some _ (fun c => if c < q then (-1 : Int) else 0) _ (fun c hcM => eL c (List.mem_range.1 hcM)),
    mapM_some _ (fun _ => (-1 : Int)) _ (fun c hcM => eA c (List.mem_range.1 hcM)),
    mapM_some _ (randRow M rnd) (List.range N) ?_]
  · simp
  · intro i hi
    rw [List.mem_range] at hi
    have hlt : ∀ j, (randRow M rnd i).getD j 0 < 4294967296 := by
      intro j
      rcases Nat.lt_or_ge j M with h' | h'
      · have : (randRow M rnd i).getD j 0 < M := by
          simp only [randRow, permRow]
          rw [List.getD_eq_getElem?_getD]
          simp [h']
          exact Nat.mod_lt _ hM
        omega
      · have : (randRow M rnd i).getD j 0 = 0 := by
          rw [List.getD_eq_getElem?_getD, List.getElem?_eq_none (by simp [randRow, permRow]; omega)]; rfl
        omega
    rw [mapM_some _ (fun j => (randRow M rnd i).getD j 0) _ ?_]
    · congr 1
      apply List.ext_getElem?
      intro j
      rcases Nat.lt_or_ge j M with h' | h'
      · have hl' : j < (randRow M rnd i).length := by simp [randRow, permRow]; omega
        simp [h', hl']
      · rw [List.getElem?_eq_none (by simp; omega), List.getElem?_eq_none (by simp [randRow, permRow]; omega)]
    · intro j hj'
      rw [eP i j hi (List.mem_range.1 hj')]
      have := hlt j
      simp only [Option.map_some, Option.some.injEq]
      omega

/-- Mapping the memory after all stores of `init` gives the table of the abstract model. -/
theorem init_mem {M N : Nat} (h : Fits M N) (hM : 0 < M) (rnd : Nat → Nat) (junk : WMem)
    (hj : junk.length = dataLen M N / 4) :
    ∃ mem, wrun junk (initStores M N rnd) = .ok mem ∧
      mapMem mem = .ok ⟨M, N, List.replicate M (-1), (List.range N).map (randRow M rnd), List.replicate N (-1)⟩ := by
  obtain ⟨mem, h1, h2⟩ := init_mem_q h hM rnd junk hj M (Nat.le_refl _)
  refine ⟨mem, h1, ?_⟩
  rw [h2]
  congr 2
  apply List.ext_getElem?
  intro c
  rcases Nat.lt_or_ge c M with h' | h'
  · simp [h']
  · rw [List.getElem?_eq_none (by simp; omega), List.getElem?_eq_none (by simp; omega)]

theorem initStores_take {M N : Nat} (rnd : Nat → Nat) (q : Nat) (hq : q ≤ M) :
    (initStores M N rnd).take ((initStores M N rnd).length - M + q) = initStoresQ M N rnd q := by
  have hlen : (initStores M N rnd).length - M = (memsetStores (dataLen M N / 4) ++ headerStores M N (dataLen M N) ++
    (List.range N).flatMap (targetStores M N rnd)).length := by
    unfold initStores clearLookupStores
    rw [List.length_append (bs := List.map _ _), List.length_map, List.length_range]
    omega
  rw [hlen]
  unfold initStores initStoresQ clearLookupStores
  rw [List.take_length_add_append, ← List.map_take, List.take_range, Nat.min_eq_left hq]

end Nfqlb.Maglev
