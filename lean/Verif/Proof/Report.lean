import Verif.Model.Report
import Verif.Spec.Report
import Verif.Proof.Json
import Verif.Proof.FragCount

/-! The output of `nfqlb stats` and of `nfqlb show`. -/

set_option autoImplicit false

namespace Nfqlb.Report

open Nfqlb.CText Nfqlb.Spec.J

/-! ### `stats` -/

/-- No object begins here: reading members fails, whatever follows. -/
def MembersFail (s : List Char) : Prop := ∀ n rest, 2 * s.length + 2 ≤ n → members n (s ++ rest) = none

theorem members_bad {n : Nat} {s r1 r2 r3 r4 r5 k : List Char} {v : Json} {c : Char} (h1 : skip s = '"' :: r1) (h2 : string r1 = some (k, r2)) (h3 : skip r2 = ':' :: r3) (h4 : value n r3 = some (v, r4))
    (h5 : skip r4 = c :: r5) (hc : c ≠ '}') (hc' : c ≠ ',') : members (n + 1) s = none := by
  unfold members
  simp only [h1, h2, h3, h4, h5]
  split
  · rename_i h; cases h; exact absurd rfl hc
  · rename_i h; cases h; exact absurd rfl hc'
  · rfl

theorem members_more_none {n : Nat} {s r1 r2 r3 r4 r5 k : List Char} {v : Json} (h1 : skip s = '"' :: r1) (h2 : string r1 = some (k, r2)) (h3 : skip r2 = ':' :: r3)
    (h4 : value n r3 = some (v, r4)) (h5 : skip r4 = ',' :: r5) (h6 : members n r5 = none) : members (n + 1) s = none := by
  unfold members
  simp only [h1, h2, h3, h4, h5, h6, Option.map_none]

theorem fail_cons {w k s t : List Char} {v : Json} (hw : Ws w) (hk : k.all plainChar = true) (h : Reads v s) (ht : MembersFail t) :
    MembersFail (memberText w k s ++ ',' :: t) := by
  intro n rest hn
  unfold memberText at hn ⊢
  simp only [List.length_cons, List.length_append] at hn
  cases n with
  | zero => omega
  | succ n =>
    simp only [List.append_assoc, List.cons_append]
    exact members_more_none (by rw [skip_ws hw, skip_cons (by decide)]) (string_read hk) (skip_cons (by decide)) (h.read n _ (by omega) (numEnd_cons (by decide))) (skip_cons (by decide))
      (ht n rest (by omega))

theorem fail_quote {w k s w' t : List Char} {v : Json} (hw : Ws w) (hk : k.all plainChar = true) (h : Reads v s) (hw' : Ws w') :
    MembersFail (memberText w k s ++ (w' ++ '"' :: t)) := by
  intro n rest hn
  unfold memberText at hn ⊢
  simp only [List.length_cons, List.length_append] at hn
  cases n with
  | zero => omega
  | succ n =>
    simp only [List.append_assoc, List.cons_append]
    exact members_bad (by rw [skip_ws hw, skip_cons (by decide)]) (string_read hk) (skip_cons (by decide)) (h.read n _ (by omega) (numEnd_ws hw' (numEnd_cons (by decide))))
      (by rw [skip_ws hw', skip_cons (by decide)]) (by decide) (by decide)

theorem parse_fail {c : Char} {s : List Char} (hs : Starts s) (h : MembersFail s) (hc : c = '{') : parse (c :: s) = none := by
  subst hc
  unfold parse
  have hv : value (2 * ('{' :: s).length + 2) ('{' :: s) = none := by
    unfold value
    rw [skip_cons (by decide)]
    obtain ⟨c, t, e, h1, h2⟩ := hs
    simp only [e]
    have := h (2 * ('{' :: s).length + 1) [] (by simp only [List.length_cons]; omega)
    rw [List.append_nil] at this
    split
    · rename_i h3; cases h3; exact absurd rfl h2
    · rw [this]; rfl
  rw [hv]

def indent : List Char := ['\n', ' ', ' ']

theorem pad_reads (p n : Nat) : Reads (.num n) (List.replicate p ' ' ++ dec n) :=
  reads_ws (fun c hc => by rw [List.eq_of_mem_replicate hc]; rfl) (reads_num n)

/-- A member of the object, after the end of the line before. -/
def mem (k : String) (p n : Nat) : List Char := memberText indent k.toList (List.replicate p ' ' ++ dec n)

/-- The members after the first, then `r`. -/
def rest : List (String × Nat × Nat) → List Char → List Char
  | [], r => r
  | (k, p, n) :: l, r => ',' :: (mem k p n ++ rest l r)

theorem line_comma (k : String) (p n : Nat) (t : List Char) : '\n' :: (statLine k p n ",\n" ++ t) = mem k p n ++ ',' :: '\n' :: t := by
  have e3 : ",\n".toList = [',', '\n'] := rfl
  have e5 : "  \"".toList = [' ', ' ', '"'] := rfl
  have e6 : "\":".toList = ['"', ':'] := rfl
  unfold statLine mem memberText indent
  rw [e3, e5, e6]
  simp only [List.append_assoc, List.cons_append, List.nil_append]

theorem line_end (k : String) (p n : Nat) (t : List Char) : '\n' :: (statLine k p n "\n" ++ t) = mem k p n ++ '\n' :: t := by
  have e3 : "\n".toList = ['\n'] := rfl
  have e5 : "  \"".toList = [' ', ' ', '"'] := rfl
  have e6 : "\":".toList = ['"', ':'] := rfl
  unfold statLine mem memberText indent
  rw [e3, e5, e6]
  simp only [List.append_assoc, List.cons_append, List.nil_append]

theorem line_last (k : String) (p n : Nat) : '\n' :: (statLine k p n "\n" ++ "}\n".toList) = mem k p n ++ ['\n', '}', '\n'] := by
  rw [line_end]
  rfl

theorem print_eq (s : FragStats) : fragPrintStats s = '{' :: (mem "hsize" 12 s.size ++ rest [("ttlMillis", 8, u32 (s.ttlNanos / 1000000)), ("collisions", 7, s.collisions), ("inserts", 10, s.inserts),
    ("rejected", 9, s.rejectedInserts), ("lookups", 10, s.lookups), ("objGC", 12, s.objGC), ("mtu", 14, s.mtu), ("bucketsMax", 7, s.bucketsMax), ("bucketsAllocated", 1, s.bucketsAllocated),
    ("bucketsUsed", 6, s.bucketsUsed), ("fragsMax", 9, s.fragsMax), ("fragsAllocated", 3, s.fragsAllocated), ("fragsDiscarded", 3, s.fragsDiscarded)]
    (mem "reAssembled" 6 s.reAssembled ++ ['\n', '}', '\n'])) := by
  have e1 : "{\n".toList = ['{', '\n'] := rfl
  unfold fragPrintStats
  rw [e1]
  simp only [List.append_assoc]
  rw [List.cons_append, List.cons_append, List.nil_append]
  rw [line_comma, line_comma, line_comma, line_comma, line_comma, line_comma, line_comma, line_comma, line_comma, line_comma, line_comma, line_comma, line_comma, line_end, line_last]
  rfl

theorem plain_keys : ∀ k ∈ ["hsize", "ttlMillis", "collisions", "inserts", "rejected", "lookups", "objGC", "mtu", "bucketsMax", "bucketsAllocated", "bucketsUsed", "fragsMax", "fragsAllocated",
    "fragsDiscarded", "reAssembled"], k.toList.all plainChar = true := by decide

theorem ws_indent : Ws indent := by
  intro c hc
  simp [indent] at hc
  rcases hc with rfl | rfl <;> rfl

theorem rest_fail (p0 n0 p n : Nat) (k0 k : String) (hk : k.toList.all plainChar = true) (hk0 : k0.toList.all plainChar = true) (t : List Char) : ∀ (l : List (String × Nat × Nat)), (∀ x ∈ l, x.1.toList.all plainChar = true) →
    MembersFail (mem k0 p0 n0 ++ rest (l ++ [(k, p, n)]) (indent ++ '"' :: t))
  | [], _ => by
    have : mem k0 p0 n0 ++ rest ([] ++ [(k, p, n)]) (indent ++ '"' :: t) = mem k0 p0 n0 ++ ',' :: (mem k p n ++ (indent ++ '"' :: t)) := rfl
    rw [this]
    exact fail_cons ws_indent hk0 (pad_reads p0 n0) (fail_quote ws_indent hk (pad_reads p n) ws_indent)
  | (k1, p1, n1) :: l, h => by
    have ih := rest_fail p1 n1 p n k1 k hk (h (k1, p1, n1) (by simp)) t l (fun x hx => h x (by simp [hx]))
    exact fail_cons ws_indent hk0 (pad_reads p0 n0) ih

theorem print_fail (s : FragStats) : parse (fragPrintStats s) = none := by
  rw [print_eq]
  refine parse_fail (starts_append (member_starts ws_indent)) ?_ rfl
  have := rest_fail 12 s.size 3 s.fragsDiscarded "hsize" "fragsDiscarded" (by decide) (by decide)
    ("reAssembled".toList ++ '"' :: ':' :: (List.replicate 6 ' ' ++ dec s.reAssembled) ++ ['\n', '}', '\n'])
    [("ttlMillis", 8, u32 (s.ttlNanos / 1000000)), ("collisions", 7, s.collisions), ("inserts", 10, s.inserts),
    ("rejected", 9, s.rejectedInserts), ("lookups", 10, s.lookups), ("objGC", 12, s.objGC), ("mtu", 14, s.mtu), ("bucketsMax", 7, s.bucketsMax), ("bucketsAllocated", 1, s.bucketsAllocated),
    ("bucketsUsed", 6, s.bucketsUsed), ("fragsMax", 9, s.fragsMax), ("fragsAllocated", 3, s.fragsAllocated)]
    (fun x hx => plain_keys x.1 (by
      simp only [List.mem_cons, List.not_mem_nil, or_false] at hx
      rcases hx with rfl | rfl | rfl | rfl | rfl | rfl | rfl | rfl | rfl | rfl | rfl | rfl <;> simp))
  simpa only [mem, memberText, List.cons_append, List.nil_append, List.append_assoc] using this

/-- With the missing comma. -/
theorem rest_read (k0 : String) (p0 n0 : Nat) (hk0 : k0.toList.all plainChar = true) : ∀ (l : List (String × Nat × Nat)), (∀ x ∈ l, x.1.toList.all plainChar = true) →
    MembersRead ((k0.toList, .num n0) :: l.map (fun x => (x.1.toList, Json.num x.2.2))) (mem k0 p0 n0 ++ rest l [])
  | [], _ => by
    have : mem k0 p0 n0 ++ rest [] [] = mem k0 p0 n0 := List.append_nil _
    rw [this]
    exact members_one ws_indent hk0 (pad_reads p0 n0)
  | (k1, p1, n1) :: l, h => by
    have ih := rest_read k1 p1 n1 (h (k1, p1, n1) (by simp)) l (fun x hx => h x (by simp [hx]))
    exact members_cons ws_indent hk0 (pad_reads p0 n0) ih

theorem rest_append (r : List Char) : ∀ (l : List (String × Nat × Nat)), rest l r = rest l [] ++ r
  | [] => rfl
  | (k, p, n) :: l => by
    simp only [rest]
    rw [rest_append r l]
    simp

/-- The counters with their names in the output. -/
def entries (s : FragStats) : List (String × Nat × Nat) := [("ttlMillis", 8, u32 (s.ttlNanos / 1000000)), ("collisions", 7, s.collisions), ("inserts", 10, s.inserts),
    ("rejected", 9, s.rejectedInserts), ("lookups", 10, s.lookups), ("objGC", 12, s.objGC), ("mtu", 14, s.mtu), ("bucketsMax", 7, s.bucketsMax), ("bucketsAllocated", 1, s.bucketsAllocated),
    ("bucketsUsed", 6, s.bucketsUsed), ("fragsMax", 9, s.fragsMax), ("fragsAllocated", 3, s.fragsAllocated), ("fragsDiscarded", 3, s.fragsDiscarded)]

theorem print_fixed (s : FragStats) : ∃ a b, fragPrintStats s = a ++ b ∧
    parse (a ++ ',' :: b) = some (.obj (("hsize".toList, .num s.size) :: (entries s ++ [("reAssembled", 6, s.reAssembled)]).map (fun (x : String × Nat × Nat) => (x.1.toList, Json.num x.2.2)))) := by
  refine ⟨'{' :: (mem "hsize" 12 s.size ++ rest (entries s) []), mem "reAssembled" 6 s.reAssembled ++ ['\n', '}', '\n'], ?_, ?_⟩
  · have := print_eq s
    rw [this, rest_append]
    simp [entries]
  · have h := rest_read "hsize" 12 s.size (by decide) (entries s ++ [("reAssembled", 6, s.reAssembled)]) (fun x hx => plain_keys x.1 (by
      simp only [entries, List.cons_append, List.nil_append, List.mem_cons, List.not_mem_nil, or_false] at hx
      rcases hx with rfl | rfl | rfl | rfl | rfl | rfl | rfl | rfl | rfl | rfl | rfl | rfl | rfl | rfl <;> simp))
    have h2 := parse_reads (reads_obj h (w := ['\n']) (by intro c hc; simp at hc; subst hc; rfl)) (w := ['\n']) (by intro c hc; simp at hc; subst hc; rfl)
    have e : ∀ (l : List (String × Nat × Nat)), rest (l ++ [("reAssembled", 6, s.reAssembled)]) [] = rest l [] ++ ',' :: mem "reAssembled" 6 s.reAssembled := by
      intro l
      induction l with
      | nil => simp [rest]
      | cons x l ih => obtain ⟨k, p, n⟩ := x; simp only [List.cons_append, rest, ih, List.append_assoc]
    rw [e] at h2
    rw [← h2]
    simp

/-! ### `show` -/

open Nfqlb.Spec.Show Nfqlb.Maglev

theorem lit_read (p s : List Char) : lit p (p ++ s) = some s := by
  unfold lit
  rw [if_pos (List.take_left), List.drop_left]

theorem nat_read (n : Nat) (r : List Char) (h : NumEnd r) : Spec.Show.nat (dec n ++ r) = some (n, r) := number_read n r h

theorem int_read (v : Int) (r : List Char) (h : NumEnd r) : Spec.Show.int (Trace.decInt v ++ r) = some (v, r) := by
  unfold Trace.decInt
  split
  · rename_i hv
    rw [List.cons_append]
    simp only [Spec.Show.int]
    rw [nat_read _ _ h, Option.map_some]
    have : -(((-v).toNat : Nat) : Int) = v := by omega
    rw [this]
  · rename_i hv
    have e := nat_read v.toNat r h
    obtain ⟨c, t, e1, hc⟩ := digits_head v.toNat
    unfold dec at e ⊢
    rw [e1] at e ⊢
    rw [List.cons_append] at e ⊢
    unfold Spec.Show.int
    split
    · rename_i r1 he
      cases he
      exact absurd hc (by decide)
    · rw [e, Option.map_some]
      have : ((v.toNat : Nat) : Int) = v := by omega
      rw [this]

/-- Neither a digit nor a blank comes next. -/
def End (s : List Char) : Prop := NumEnd s ∧ ∀ c ∈ s.head?, c ≠ ' '

theorem ints_end {s : List Char} (h : End s) (n : Nat) : ints n s = ([], s) := by
  unfold ints
  split
  · exact absurd rfl (h.2 ' ' (by simp))
  · rfl

theorem targets_end {s : List Char} (h : End s) (n : Nat) : targets n s = ([], s) := by
  unfold targets
  split
  · exact absurd rfl (h.2 ' ' (by simp))
  · rfl

def intText (v : Int) : List Char := ' ' :: Trace.decInt v

def targetText (x : Int × Nat) : List Char := ' ' :: (Trace.decInt x.1 ++ '(' :: (dec x.2 ++ [')']))

theorem intsText_end {r : List Char} (h : End r) : ∀ (vs : List Int), NumEnd (vs.flatMap intText ++ r)
  | [] => h.1
  | _ :: _ => numEnd_cons (by decide)

theorem ints_read {r : List Char} (h : End r) : ∀ (vs : List Int) (n : Nat), vs.length ≤ n → ints n (vs.flatMap intText ++ r) = (vs, r)
  | [], n, _ => ints_end h n
  | v :: vs, 0, hn => absurd hn (by simp)
  | v :: vs, n + 1, hn => by
    have ih := ints_read h vs n (by simpa using hn)
    have e : (v :: vs).flatMap intText ++ r = ' ' :: (Trace.decInt v ++ (vs.flatMap intText ++ r)) := by
      rw [List.flatMap_cons]
      simp only [intText, List.cons_append, List.append_assoc]
    rw [e]
    simp only [ints]
    rw [int_read _ _ (intsText_end h vs)]
    dsimp only
    rw [ih]

theorem target_read (x : Int × Nat) (r : List Char) : Spec.Show.target (Trace.decInt x.1 ++ '(' :: (dec x.2 ++ ')' :: r)) = some (x, r) := by
  unfold Spec.Show.target
  rw [int_read _ _ (numEnd_cons (by decide))]
  have e1 : ∀ s, lit ['('] ('(' :: s) = some s := fun s => lit_read ['('] s
  have e2 : ∀ s, lit [')'] (')' :: s) = some s := fun s => lit_read [')'] s
  simp only [bind, Option.bind, e1]
  rw [nat_read _ _ (numEnd_cons (by decide))]
  simp only [e2, pure]

theorem targets_read {r : List Char} (h : End r) : ∀ (vs : List (Int × Nat)) (n : Nat), vs.length ≤ n → targets n (vs.flatMap targetText ++ r) = (vs, r)
  | [], n, _ => targets_end h n
  | v :: vs, 0, hn => absurd hn (by simp)
  | v :: vs, n + 1, hn => by
    have ih := targets_read h vs n (by simpa using hn)
    have e : (v :: vs).flatMap targetText ++ r = ' ' :: (Trace.decInt v.1 ++ '(' :: (dec v.2 ++ ')' :: (vs.flatMap targetText ++ r))) := by
      rw [List.flatMap_cons]
      simp only [targetText, List.cons_append, List.append_assoc, List.nil_append]
    rw [e]
    simp only [Spec.Show.targets]
    rw [target_read]
    dsimp only
    rw [ih]

theorem showLookup_eq {d : Mag} (hl : d.lookup.length = d.M) : ∀ (n i : Nat), i + n = 25 → showLookup d n i = .ok (((d.lookup.drop i).take n).flatMap intText)
  | 0, i, _ => by simp [showLookup]
  | n + 1, i, h => by
    unfold showLookup
    split
    · rename_i hi
      have hlt : i < d.lookup.length := by omega
      rw [List.getElem?_eq_getElem hlt, showLookup_eq hl n (i + 1) (by omega)]
      dsimp only
      rw [Res.ok_bind, Res.pure_eq, List.drop_eq_getElem_cons hlt, List.take_succ_cons, List.flatMap_cons]
      rfl
    · rename_i hi
      rw [List.drop_eq_nil_of_le (by omega)]
      rfl

theorem showActive_eq (d : Mag) : ∀ (n i : Nat), i + n = d.active.length → showActive d n i = .ok ((((d.active.drop i).zipIdx i).filter (fun x => decide (0 ≤ x.1))).flatMap targetText)
  | 0, i, h => by
    rw [List.drop_eq_nil_of_le (by omega)]
    rfl
  | n + 1, i, h => by
    have hlt : i < d.active.length := by omega
    unfold showActive
    rw [List.getElem?_eq_getElem hlt, showActive_eq d n (i + 1) (by omega), List.drop_eq_getElem_cons hlt, List.zipIdx_cons]
    dsimp only
    rw [Res.ok_bind, Res.pure_eq]
    split
    · rename_i hv
      rw [List.filter_cons_of_pos (by simpa using hv), List.flatMap_cons]
      refine congrArg Res.ok ?_
      have e1 : " ".toList = [' '] := rfl
      have e2 : "(".toList = ['('] := rfl
      have e3 : ")".toList = [')'] := rfl
      rw [e1, e2, e3]
      simp only [targetText, List.append_assoc, List.cons_append, List.nil_append]
    · rename_i hv
      rw [List.filter_cons_of_neg (by simpa using hv)]
      rfl

theorem decU_eq {n : Nat} (h : n < 2147483648) : decU n = dec n := by
  unfold decU cint Trace.decInt
  have : ((n : Int) + 2147483648) % 4294967296 - 2147483648 = n := by omega
  rw [this, if_neg (by omega)]
  rfl

theorem show_eq {d : Mag} (hl : d.lookup.length = d.M) (ha : d.active.length = d.N) (shm : List Char) (own : Int) :
    cmdShow shm own d = .ok ("Shm: ".toList ++ (shm ++ ("\n  Fw: own=".toList ++ (Trace.decInt own ++ ("\n  Maglev: M=".toList ++ (decU d.M ++ (", N=".toList ++ (decU d.N ++ ("\n   Lookup:".toList ++
      ((d.lookup.take 25).flatMap intText ++ ("...\n   Active:".toList ++ ((d.active.zipIdx.filter (fun x => decide (0 ≤ x.1))).flatMap targetText ++ ['\n'])))))))))))) := by
  unfold cmdShow
  rw [showLookup_eq hl 25 0 rfl, showActive_eq d d.N 0 (by omega)]
  rw [Res.ok_bind, Res.ok_bind, Res.pure_eq]
  have e : "\n".toList = ['\n'] := rfl
  rw [e]
  simp only [List.append_assoc, List.drop_zero]

theorem flat_length {α : Type} (f : α → List Char) (hf : ∀ a, 1 ≤ (f a).length) : ∀ (l : List α), l.length ≤ (l.flatMap f).length
  | [] => by simp
  | a :: l => by
    have := flat_length f hf l
    have := hf a
    simp only [List.flatMap_cons, List.length_append, List.length_cons]
    omega

theorem show_read {d : Mag} (hl : d.lookup.length = d.M) (ha : d.active.length = d.N) (hM : d.M < 2147483648) (hN : d.N < 2147483648) (shm : List Char) (hs : '\n' ∉ shm) (own : Int) :
    ∃ txt, cmdShow shm own d = .ok txt ∧ Spec.Show.read txt = some ⟨shm, own, d.M, d.N, d.lookup.take 25, d.active.zipIdx.filter (fun x => decide (0 ≤ x.1))⟩ := by
  refine ⟨_, show_eq hl ha shm own, ?_⟩
  rw [decU_eq hM, decU_eq hN]
  have hp : ∀ c ∈ shm, (c != '\n') = true := by
    intro c hc
    simp only [bne_iff_ne, ne_eq]
    intro e; subst e; exact hs hc
  have n1 : ∀ X, NumEnd ("\n  Maglev: M=".toList ++ X) := fun X => numEnd_cons (c := '\n') (by decide)
  have n2 : ∀ X, NumEnd (", N=".toList ++ X) := fun X => numEnd_cons (c := ',') (by decide)
  have n3 : ∀ X, NumEnd ("\n   Lookup:".toList ++ X) := fun X => numEnd_cons (c := '\n') (by decide)
  have n4 : ∀ X, End ("...\n   Active:".toList ++ X) := fun X => ⟨numEnd_cons (c := '.') (by decide), fun c hc => by
    have : c = '.' := by
      have e : ("...\n   Active:".toList ++ X).head? = some '.' := rfl
      rw [e] at hc
      simpa using hc.symm
    subst this; decide⟩
  have n5 : End ['\n'] := ⟨numEnd_cons (by decide), fun c hc => by simp at hc; subst hc; decide⟩
  have t1 : ∀ X, (shm ++ ("\n  Fw: own=".toList ++ X)).takeWhile (fun c => c != '\n') = shm := by
    intro X
    rw [List.takeWhile_append_of_pos hp]
    have : ("\n  Fw: own=".toList ++ X).takeWhile (fun c => c != '\n') = [] := rfl
    rw [this, List.append_nil]
  have t2 : ∀ X, (shm ++ ("\n  Fw: own=".toList ++ X)).dropWhile (fun c => c != '\n') = "\n  Fw: own=".toList ++ X := by
    intro X
    rw [List.dropWhile_append_of_pos hp]
    rfl
  unfold Spec.Show.read
  rw [lit_read]
  simp only [Option.bind_eq_bind, Option.bind_some]
  rw [t2, lit_read, Option.bind_some, int_read _ _ (n1 _), Option.bind_some]
  dsimp only
  rw [lit_read, Option.bind_some, nat_read _ _ (n2 _), Option.bind_some]
  dsimp only
  rw [lit_read, Option.bind_some, nat_read _ _ (n3 _), Option.bind_some]
  dsimp only
  rw [lit_read, Option.bind_some]
  rw [ints_read (n4 _) _ _ (by
    have := flat_length intText (fun a => by simp [intText]) (d.lookup.take 25)
    simp only [List.length_append] at *
    omega)]
  dsimp only
  rw [lit_read, Option.bind_some]
  rw [targets_read n5 _ _ (by
    have := flat_length targetText (fun a => by simp [targetText]) (d.active.zipIdx.filter (fun x => decide (0 ≤ x.1)))
    rw [List.length_append]
    omega)]
  dsimp only
  rw [if_pos rfl, t1]
  rfl

end Nfqlb.Report
