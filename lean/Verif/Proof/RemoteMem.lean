import Verif.Proof.RemoteAny

/-! What is read does not depend on the memory in use. -/

set_option autoImplicit false

namespace Nfqlb.Remote

open Nfqlb Nfqlb.Spec.Rem

theorem dupField_fst (f : Option (List Char)) (arg : List Char) (m m' : Mem) : (dupField f arg m).1 = (dupField f arg m').1 := by
  cases f <;> rfl

theorem listField_fst (f : Option (List (List Char))) (arg delim : List Char) (m m' : Mem) :
    (listField f arg delim m >>= fun x => Res.ok x.1) = (listField f arg delim m' >>= fun x => Res.ok x.1) := by
  cases f with
  | some x => rfl
  | none =>
    unfold listField
    dsimp only
    cases Argv.mkargv arg delim with
    | ok o => cases o <;> rfl
    | die => rfl
    | ub => rfl
    | hang => rfl

theorem list_step {α : Type} (f : Option (List (List Char))) (arg delim : List Char) (m m' : Mem) (g : Option (List (List Char)) → α) :
    (listField f arg delim m >>= fun r => Res.ok (g r.1)) = (listField f arg delim m' >>= fun r => Res.ok (g r.1)) := by
  have h := listField_fst f arg delim m m'
  cases h1 : listField f arg delim m <;> cases h2 : listField f arg delim m' <;> rw [h1, h2] at h <;> simp only [Res.ok_bind, Res.die_bind, Res.ub_bind, Res.hang_bind] at h ⊢ <;> first | rfl | cases h | skip
  rw [Res.ok.inj h]

theorem setField_fst (c : FlowCmd) (m m' : Mem) (name arg : List Char) :
    (setField c m name arg >>= fun x => Res.ok x.1) = (setField c m' name arg >>= fun x => Res.ok x.1) := by
  have hb : ∀ (x : Res (Option (List (List Char)) × Mem)) (g : Option (List (List Char)) → FlowCmd), ((x >>= fun r => Res.ok (g r.1, r.2)) >>= fun x => Res.ok x.1) = (x >>= fun r => Res.ok (g r.1)) := by
    intro x g
    cases x <;> rfl
  unfold setField
  by_cases h : name = "action".toList
  · simp only [if_pos h, Res.ok_bind, dupField_fst c.action arg m m']
  rw [if_neg h, if_neg h]
  by_cases h : name = "name".toList
  · simp only [if_pos h, Res.ok_bind, dupField_fst c.name arg m m']
  rw [if_neg h, if_neg h]
  by_cases h : name = "target".toList
  · simp only [if_pos h, Res.ok_bind, dupField_fst c.target arg m m']
  rw [if_neg h, if_neg h]
  by_cases h : name = "priority".toList
  · simp only [if_pos h, Res.ok_bind]
  rw [if_neg h, if_neg h]
  by_cases h : name = "protocols".toList
  · rw [if_pos h, if_pos h]
    simp only [Res.pure_eq, hb _ (fun x => ({ c with protocols := x } : FlowCmd))]
    exact list_step _ _ _ _ _ (fun x => ({ c with protocols := x } : FlowCmd))
  rw [if_neg h, if_neg h]
  by_cases h : name = "dports".toList
  · simp only [if_pos h, Res.ok_bind, dupField_fst c.dports arg m m']
  rw [if_neg h, if_neg h]
  by_cases h : name = "sports".toList
  · simp only [if_pos h, Res.ok_bind, dupField_fst c.sports arg m m']
  rw [if_neg h, if_neg h]
  by_cases h : name = "dsts".toList
  · rw [if_pos h, if_pos h]
    simp only [Res.pure_eq, hb _ (fun x => ({ c with dsts := x } : FlowCmd))]
    exact list_step _ _ _ _ _ (fun x => ({ c with dsts := x } : FlowCmd))
  rw [if_neg h, if_neg h]
  by_cases h : name = "srcs".toList
  · rw [if_pos h, if_pos h]
    simp only [Res.pure_eq, hb _ (fun x => ({ c with srcs := x } : FlowCmd))]
    exact list_step _ _ _ _ _ (fun x => ({ c with srcs := x } : FlowCmd))
  rw [if_neg h, if_neg h]
  by_cases h : name = "match".toList
  · rw [if_pos h, if_pos h]
    simp only [Res.pure_eq, hb _ (fun x => ({ c with mtch := x } : FlowCmd))]
    exact list_step _ _ _ _ _ (fun x => ({ c with mtch := x } : FlowCmd))
  rw [if_neg h, if_neg h]
  by_cases h : name = "udpencap".toList
  · simp only [if_pos h, Res.ok_bind]
  rw [if_neg h, if_neg h]
  rfl

/-- The same outcome, with the same command. -/
def SameLine : Res Line → Res Line → Prop
  | .ok .eoc, .ok .eoc => True
  | .ok .bad, .ok .bad => True
  | .ok (.next c _), .ok (.next c' _) => c = c'
  | .die, .die => True
  | .ub, .ub => True
  | .hang, .hang => True
  | _, _ => False

theorem doLine_same (c : FlowCmd) (m m' : Mem) (buf : List Char) : SameLine (doLine c m buf) (doLine c m' buf) := by
  unfold doLine
  split
  · trivial
  · cases CText.strchr ':' buf with
    | none => trivial
    | some r =>
      dsimp only
      have h := setField_fst c m m' (buf.takeWhile (fun x => x != ':')) (r.drop 1)
      cases h1 : setField c m (buf.takeWhile (fun x => x != ':')) (r.drop 1) <;> cases h2 : setField c m' (buf.takeWhile (fun x => x != ':')) (r.drop 1) <;> rw [h1, h2] at h <;>
        simp only [Res.ok_bind, Res.die_bind, Res.ub_bind, Res.hang_bind, Res.pure_eq] at h ⊢ <;> first | trivial | cases h | skip
      exact Res.ok.inj h

/-- What was read, without the memory. -/
def seen (r : Read) : Int × FlowCmd × List Char := (r.rc, r.cmd, r.rest)

theorem readLoop_same : ∀ (n : Nat) (s : List Char) (c : FlowCmd) (m m' : Mem), s.length ≤ n → (readLoop s c m >>= fun r => Res.ok (seen r)) = (readLoop s c m' >>= fun r => Res.ok (seen r))
  | n, s, c, m, m', hn => by
    rw [readLoop_eq, readLoop_eq s c m']
    cases hf : fgets 1024 s with
    | none => rfl
    | some x =>
      obtain ⟨raw, rest⟩ := x
      have hlt := fgets_lt (by decide) hf
      dsimp only
      have hd := doLine_same c m m' (trimLine raw)
      cases h1 : doLine c m (trimLine raw) with
      | ok l1 =>
        cases h2 : doLine c m' (trimLine raw) with
        | ok l2 =>
          rw [h1, h2] at hd
          cases l1 <;> cases l2 <;> first | exact absurd hd (fun h => h) | rfl | skip
          rename_i c1 m1 c2 m2
          have hd : c1 = c2 := hd
          subst hd
          cases n with
          | zero => omega
          | succ n => exact readLoop_same n rest c1 m1 m2 (by omega)
        | die => rw [h1, h2] at hd; cases l1 <;> cases hd
        | ub => rw [h1, h2] at hd; cases l1 <;> cases hd
        | hang => rw [h1, h2] at hd; cases l1 <;> cases hd
      | die => rw [h1] at hd; cases h2 : doLine c m' (trimLine raw) <;> rw [h2] at hd <;> first | rfl | cases hd
      | ub => rw [h1] at hd; cases h2 : doLine c m' (trimLine raw) <;> rw [h2] at hd <;> first | rfl | cases hd
      | hang => rw [h1] at hd; cases h2 : doLine c m' (trimLine raw) <;> rw [h2] at hd <;> first | rfl | cases hd

/-- Reading the same bytes at another time gives the same. -/
theorem read_same (s : List Char) {m m' : Mem} {r r' : Read} (h : readFlowCmd s m = .ok r) (h' : readFlowCmd s m' = .ok r') : r'.rc = r.rc ∧ r'.cmd = r.cmd ∧ r'.rest = r.rest := by
  have e := readLoop_same s.length s FlowCmd.zero m m' (Nat.le_refl _)
  unfold readFlowCmd at h h'
  rw [h, h'] at e
  have e := Res.ok.inj e
  simp only [seen, Prod.mk.injEq] at e
  exact ⟨e.1.symm, e.2.1.symm, e.2.2.symm⟩

end Nfqlb.Remote
