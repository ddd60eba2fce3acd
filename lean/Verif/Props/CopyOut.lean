import Verif.Spec.CopyOut
import Verif.Props.TraceSrv
import Verif.Props.Client

/-! C96: what the clients that copy print. -/

set_option autoImplicit false

namespace Nfqlb.Props

open Nfqlb Nfqlb.CopyOut Nfqlb.Spec.CO

theorem taken_all (p : List Char) : taken (p.length : Int) p = p := by
  unfold taken; rw [Int.toNat_natCast, List.take_length]

theorem taken_prefix (r : Int) (p : List Char) : taken r p <+: p := List.take_prefix _ _

theorem traceLoop_ok (w : Nat → Nat → Int) : ∀ (ps : List (List Char)) (i : Nat), (traceLoop w i ps).2 = true → (traceLoop w i ps).1 = ps.flatten
  | [], _, _ => rfl
  | p :: ps, i, h => by
    unfold traceLoop at h ⊢
    by_cases hw : w i p.length ≠ p.length
    · rw [if_pos hw] at h; cases h
    · rw [if_neg hw] at h ⊢
      dsimp only at h ⊢
      rw [traceLoop_ok w ps (i + 1) h, Decidable.of_not_not hw, taken_all]; rfl

theorem traceLoop_prefix (w : Nat → Nat → Int) : ∀ (ps : List (List Char)) (i : Nat), (traceLoop w i ps).1 <+: ps.flatten
  | [], _ => List.prefix_rfl
  | p :: ps, i => by
    unfold traceLoop
    by_cases hw : w i p.length ≠ p.length
    · rw [if_pos hw]; exact (taken_prefix _ p).trans (List.prefix_append _ _)
    · rw [if_neg hw, Decidable.of_not_not hw, taken_all]
      exact (List.prefix_append_right_inj p).2 (traceLoop_prefix w ps (i + 1))

theorem traceLoop_bad (w : Nat → Nat → Int) : ∀ (ps : List (List Char)) (i : Nat), (traceLoop w i ps).2 = false ↔ ∃ j p, ps[j]? = some p ∧ w (i + j) p.length ≠ p.length
  | [], i => ⟨(fun h => by cases h), (fun ⟨j, p, h, _⟩ => by cases h)⟩
  | p :: ps, i => by
    unfold traceLoop
    by_cases hw : w i p.length ≠ p.length
    · rw [if_pos hw]; exact ⟨fun _ => ⟨0, p, rfl, hw⟩, fun _ => rfl⟩
    · rw [if_neg hw]
      dsimp only
      rw [traceLoop_bad w ps (i + 1)]
      constructor
      · rintro ⟨j, q, h1, h2⟩
        exact ⟨j + 1, q, h1, by rw [show i + (j + 1) = i + 1 + j by omega]; exact h2⟩
      · rintro ⟨j, q, h1, h2⟩
        cases j with
        | zero =>
          cases h1
          exact absurd h2 hw
        | succ j => exact ⟨j, q, h1, by rw [show i + 1 + j = i + (j + 1) by omega]; exact h2⟩

theorem listLoop_all {w : Nat → Nat → Int} (hw : TakesAll w) : ∀ (ps : List (List Char)) (i : Nat), listLoop w i ps = ps.flatten
  | [], _ => rfl
  | p :: ps, i => by
    unfold listLoop
    rw [hw, taken_all, listLoop_all hw ps (i + 1)]; rfl

/-- **C96**, `nfqlb trace` on a terminal. Whatever the pieces are that arrive and whatever `write` takes of them: the mask is printed, and then a beginning of what arrives. If it ends with 0, or by a signal, that is all that has
arrived; and it ends with 1 exactly if some piece is not taken as a whole. -/
theorem C96_trace (mask : Nat) (k : Kernel) (bytes : List Char) (hk : Arrives k bytes) :
    ∃ out, (trace true mask k).out = maskLine mask ++ out ∧ out <+: bytes ∧ ((trace true mask k).code ≠ some 1 → out = bytes) ∧
      ((trace true mask k).code = some 1 ↔ ∃ i, Short k i) ∧ ((trace true mask k).code ≠ some 1 → ((trace true mask k).code = none ↔ k.signal = true)) := by
  have hk' : k.pieces.flatten = bytes := hk
  have h2 := traceLoop_prefix k.write k.pieces 0
  rw [hk'] at h2
  have h3 := traceLoop_bad k.write k.pieces 0
  have h3' : (traceLoop k.write 0 k.pieces).2 = false ↔ ∃ i, Short k i := by
    rw [h3]
    constructor
    · rintro ⟨j, p, a, b⟩; exact ⟨j, p, a, by rw [Nat.zero_add] at b; exact b⟩
    · rintro ⟨j, p, a, b⟩; exact ⟨j, p, a, by rw [Nat.zero_add]; exact b⟩
  refine ⟨(traceLoop k.write 0 k.pieces).1, ?_, h2, ?_, ?_, ?_⟩
  all_goals
    unfold trace
    dsimp only
    cases hl : (traceLoop k.write 0 k.pieces).2 with
    | false => rw [hl] at h3'; simp [h3'.symm]
    | true =>
      have h1 := traceLoop_ok k.write k.pieces 0 hl
      rw [hk'] at h1
      rw [hl] at h3'
      cases hs : k.signal <;> simp_all

/-- **C96**: the line with the mask is `Mask=0x`, eight hexadecimal digits that are the mask, and the end of the line. -/
theorem C96_mask (mask : Nat) (h : mask < 2^32) : ∃ t, maskLine mask = "Mask=0x".toList ++ t ++ ['\n'] ∧ t.length = 8 ∧ (∀ c ∈ t, c ∈ "0123456789abcdef".toList) ∧ Spec.FL.hexNum t = mask := by
  obtain ⟨t, h1, h2⟩ := C70_greeting mask h
  refine ⟨t, ?_, h2⟩
  have h3 : TraceSrv.hex8 mask = t := by
    have h4 : "Trace active, mask=0x".toList ++ TraceSrv.hex8 mask ++ ['\n'] = "Trace active, mask=0x".toList ++ t ++ ['\n'] := h1
    exact List.append_cancel_left (List.append_cancel_right h4)
  unfold maskLine
  rw [h3]

/-- **C96**, from the trace server to the terminal (with C70): whatever has happened before, if the trace server is idle then `nfqlb trace` prints its mask, the announcement with its mask, and exactly what other threads write of what it
selected, in whatever pieces that arrives, as long as the terminal takes everything. -/
theorem C96_terminal (s s' : TraceSrv.St) (hh : Spec.TSrv.Hist Spec.TSrv.Any s) (hp : s.pc = .accept) (hq : s.queue = []) (c mask fd fd' : Nat) (hc : c ∉ s.used) (hf : s.fds fd = none) (es : List TraceSrv.Ev)
    (he : ∀ e ∈ es, Spec.TSrv.keepsMask e ∧ Spec.TSrv.stays c e) (h : TraceSrv.run s (.setMask mask :: .connect c :: .serve fd :: .serve fd' :: es) = .ok s')
    (k : Kernel) (hk : Arrives k ((s'.got.drop s.got.length).map (·.2)).flatten) (hw : TakesAll k.write) :
    (trace true mask k).out = maskLine mask ++ TraceSrv.active mask ++ (Spec.TSrv.lines mask es).flatten ∧ (trace true mask k).code ≠ some 1 := by
  have hg := (C70_client_partial s s' hh hp hq c mask fd fd' hc hf es he h).1
  have hb : ((s'.got.drop s.got.length).map (·.2)).flatten = TraceSrv.active mask ++ (Spec.TSrv.lines mask es).flatten := by
    rw [hg, List.drop_left, List.map_cons, List.map_map, List.flatten_cons]
    congr 2
    exact List.map_id _
  rw [hb] at hk
  obtain ⟨out, h1, _, h3, h4, _⟩ := C96_trace mask k _ hk
  have h5 : (trace true mask k).code ≠ some 1 := fun e => by
    obtain ⟨i, p, _, h6⟩ := h4.1 e
    exact h6 (hw i p.length)
  exact ⟨by rw [h1, h3 h5, List.append_assoc], h5⟩

/-- **C96**, the list commands, as long as the output takes everything: all that arrives is printed and nothing else. Missing: outputs that do not, see `C96_violated`. -/
theorem C96_list_partial (k : Kernel) (bytes : List Char) (hk : Arrives k bytes) (hw : TakesAll k.write) (hs : k.signal = false) : list k = ⟨bytes, some 0⟩ := by
  unfold list
  rw [hs, listLoop_all hw, show k.pieces.flatten = bytes from hk]; rfl

/-- This is what C82 says about the list commands. -/
theorem C96_client (k : Kernel) (bytes : List Char) (hk : Arrives k bytes) (hw : TakesAll k.write) (hs : k.signal = false) (ns : Nat → Nat) :
    (list k).out = (Client.listClient ns bytes).out ∧ (list k).code = some (Client.listClient ns bytes).code := by
  rw [C96_list_partial k bytes hk hw hs, C82_list]
  exact ⟨rfl, rfl⟩

/-- C96 as stated is false.
* The list commands do not look at the result of `write`: for every answer in pieces and every piece that an output does not take (a full disk) the exit code is 0, and what is printed goes on after the gap.
* If the standard output is not a terminal, `nfqlb trace` prints the mask after everything else; and if it is ended by a signal, which is the only way as long as the load-balancer runs, never. -/
theorem C96_violated :
    (∀ (a b c : List Char), list ⟨[a, b, c], false, fun i n => if i = 1 then -1 else n⟩ = ⟨a ++ c, some 0⟩) ∧
    (∀ (mask : Nat) (ps : List (List Char)), trace false mask ⟨ps, false, fun _ n => n⟩ = ⟨ps.flatten ++ maskLine mask, some 0⟩) ∧
    (∀ (mask : Nat) (ps : List (List Char)), trace false mask ⟨ps, true, fun _ n => n⟩ = ⟨ps.flatten, none⟩) := by
  have key : ∀ ps : List (List Char), (traceLoop (fun _ n => (n : Int)) 0 ps).2 = true := fun ps => by
    cases hl : (traceLoop (fun _ n => (n : Int)) 0 ps).2 with
    | true => rfl
    | false =>
      obtain ⟨j, p, _, h⟩ := (traceLoop_bad _ ps 0).1 hl
      exact absurd rfl h
  refine ⟨?_, ?_, ?_⟩
  · intro a b c
    simp [list, listLoop, taken]
  · intro mask ps
    have h := traceLoop_ok _ ps 0 (key ps)
    simp [trace, key ps, h]
  · intro mask ps
    have h := traceLoop_ok _ ps 0 (key ps)
    simp [trace, key ps, h]

/-- Such an output is one that `write` allows for. -/
example : PosixWrite (fun i n => if i = 1 then -1 else (n : Int)) := by
  intro i n; dsimp only; split <;> omega

/-- A session: the mask, the announcement, a line of what is selected; and a list whose middle is lost. -/
example : trace true 64 ⟨["Trace active, ".toList, "mask=0x00000040\nflow".toList, "\n".toList], true, fun _ n => n⟩ = ⟨"Mask=0x00000040\nTrace active, mask=0x00000040\nflow\n".toList, none⟩ ∧
    trace true 64 ⟨["Trace active, ".toList, "mask=0x00000040\nflow".toList, "\n".toList], true, fun i n => if i = 1 then 4 else n⟩ = ⟨"Mask=0x00000040\nTrace active, mask".toList, some 1⟩ ∧
    list ⟨["[\n".toList, "  \"a\"\n".toList, "]\n".toList], false, fun i n => if i = 1 then -1 else n⟩ = ⟨"[\n]\n".toList, some 0⟩ := by decide +kernel

/-- The hypotheses of `C96_terminal`: client 7 after client 5. -/
example : ∃ s s', Spec.TSrv.Hist Spec.TSrv.Any s ∧ s.pc = .accept ∧ s.queue = [] ∧ 7 ∉ s.used ∧ s.fds 3 = none ∧
    TraceSrv.run s (.setMask 64 :: .connect 7 :: .serve 3 :: .serve 0 :: [.write 6 "flow\n".toList, .write 1 "packet\n".toList]) = .ok s' ∧
    Arrives ⟨["Trace active, ".toList, "mask=0x00000040\nflow".toList, "\n".toList], true, fun _ n => n⟩ ((s'.got.drop s.got.length).map (·.2)).flatten ∧ TakesAll (fun _ n => (n : Int)) := by
  have r : ∃ s, TraceSrv.run TraceSrv.start ([.setMask 2, .connect 5, .serve 3, .serve 0, .serve 0, .leave 5] ++ List.replicate 6 (.serve 0)) = .ok s ∧ s.pc = .accept ∧ s.queue = [] ∧ 7 ∉ s.used ∧ s.fds 3 = none ∧
      ∃ s', TraceSrv.run s (.setMask 64 :: .connect 7 :: .serve 3 :: .serve 0 :: [.write 6 "flow\n".toList, .write 1 "packet\n".toList]) = .ok s' ∧
        Arrives ⟨["Trace active, ".toList, "mask=0x00000040\nflow".toList, "\n".toList], true, fun _ n => n⟩ ((s'.got.drop s.got.length).map (·.2)).flatten := ⟨_, rfl, rfl, rfl, by decide, rfl, _, rfl, rfl⟩
  obtain ⟨s, h1, h2, h3, h4, h5, s', h6, h7⟩ := r
  exact ⟨s, s', TraceSrv.hist_run _ .start (fun _ _ _ => trivial) h1, h2, h3, h4, h5, h6, h7, fun _ _ => rfl⟩

end Nfqlb.Props
