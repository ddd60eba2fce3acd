import Verif.Proof.FlowPrint

/-! What is printed for flows is JSON. -/

set_option autoImplicit false

namespace Nfqlb.Flow

open Nfqlb.Spec Nfqlb.Spec.FL Nfqlb.Spec.RS Nfqlb.RS Nfqlb.RS.Tree Nfqlb.Spec.J Nfqlb.Spec.FP

theorem ws_of {s : List Char} (h : s.all isWs = true) : Ws s := List.all_eq_true.1 h

theorem _root_.Nfqlb.Spec.J.Reads.of_eq {v w : Json} {s : List Char} (h : Reads v s) (e : v = w) : Reads w s := e ▸ h

/-! ### Arrays of strings -/

theorem printTokens_cons (t : List Char) (r : List (List Char)) (h : r ≠ []) : printTokens (t :: r) = [' ', ' ', ' ', ' ', '"'] ++ t ++ ['"'] ++ [',', '\n'] ++ printTokens r := by
  have e : printTokens (t :: r) = "    \"".toList ++ t ++ ['"'] ++ (if r ≠ [] then ",\n".toList else []) ++ printTokens r := rfl
  rw [e, if_pos h]
  rfl

theorem printTokens_one (t : List Char) : printTokens [t] = [' ', ' ', ' ', ' ', '"'] ++ t ++ ['"'] := by
  have e : printTokens [t] = "    \"".toList ++ t ++ ['"'] ++ [] ++ [] := rfl
  rw [e, List.append_nil, List.append_nil]
  rfl

theorem token_reads {t : List Char} (h : t.all plainChar = true) : Reads (.str t) ('\n' :: ([' ', ' ', ' ', ' ', '"'] ++ t ++ ['"'])) := by
  have := reads_ws (ws := ['\n', ' ', ' ', ' ', ' ']) (ws_of (by decide)) (reads_str h)
  simpa using this

theorem tokens_read : ∀ (ts : List (List Char)), ts ≠ [] → (∀ t ∈ ts, t.all plainChar = true) → ElemsRead (ts.map .str) ('\n' :: printTokens ts)
  | [], h, _ => absurd rfl h
  | [t], _, h => by
    rw [printTokens_one]
    exact elems_one (token_reads (h t (by simp)))
  | t :: u :: r, _, h => by
    have ih := tokens_read (u :: r) (by simp) (fun x hx => h x (by simp [hx]))
    have := elems_cons (token_reads (h t (by simp))) ih
    rw [printTokens_cons t (u :: r) (by simp)]
    simpa using this

/-- What is between the brackets. -/
theorem list_reads (ts : List (List Char)) (h : ∀ t ∈ ts, t.all plainChar = true) : Reads (strings ts) ('[' :: '\n' :: (printTokens ts ++ ['\n', ' ', ' ', ']'])) := by
  cases ts with
  | nil => exact reads_arr_nil (w := ['\n', '\n', ' ', ' ']) (ws_of (by decide))
  | cons t r =>
    have := reads_arr (tokens_read (t :: r) (by simp) h) (w := ['\n', ' ', ' ']) (ws_of (by decide))
    simpa [strings] using this

/-! ### Members -/

abbrev Entry := List Char × Json × List Char

def nl : List Char := ['\n', ' ', ' ']

/-- The members after the first. -/
def tail (L : List Entry) : List Char := L.flatMap (fun e => ',' :: memberText nl e.1 e.2.2)

/-- A part of an object: what is printed, and the members. -/
def Part (txt : List Char) (ms : List (List Char × Json)) : Prop :=
  ∃ L : List Entry, (∀ e ∈ L, e.1.all plainChar = true ∧ Reads e.2.1 e.2.2) ∧ txt = tail L ∧ ms = L.map (fun e => (e.1, e.2.1))

theorem Part.nil : Part [] [] := ⟨[], by simp, rfl, rfl⟩

theorem Part.one {k s : List Char} {v : Json} (hk : k.all plainChar = true) (h : Reads v s) : Part (',' :: memberText nl k s) [(k, v)] := by
  refine ⟨[(k, v, s)], ?_, by simp [tail], rfl⟩
  intro e he
  simp only [List.mem_singleton] at he
  subst he
  exact ⟨hk, h⟩

theorem Part.append {t u : List Char} {m n : List (List Char × Json)} (h : Part t m) (k : Part u n) : Part (t ++ u) (m ++ n) := by
  obtain ⟨L, h1, h2, h3⟩ := h
  obtain ⟨M, k1, k2, k3⟩ := k
  refine ⟨L ++ M, ?_, by rw [h2, k2]; simp [tail], by rw [h3, k3]; simp⟩
  intro e he
  rw [List.mem_append] at he
  rcases he with he | he
  · exact h1 e he
  · exact k1 e he

theorem members_read : ∀ (L : List Entry) (k s : List Char) (v : Json), k.all plainChar = true → Reads v s → (∀ e ∈ L, e.1.all plainChar = true ∧ Reads e.2.1 e.2.2) →
    MembersRead ((k, v) :: L.map (fun e => (e.1, e.2.1))) (memberText nl k s ++ tail L)
  | [], k, s, v, hk, hv, _ => by
    have := members_one (w := nl) (ws_of (by decide)) hk hv
    simpa [tail] using this
  | e :: L, k, s, v, hk, hv, h => by
    have ih := members_read L e.1 e.2.2 e.2.1 (h e (by simp)).1 (h e (by simp)).2 (fun x hx => h x (by simp [hx]))
    have := members_cons (w := nl) (ws_of (by decide)) hk hv ih
    simpa [tail] using this

theorem object_reads {k s t : List Char} {v : Json} {m : List (List Char × Json)} (hk : k.all plainChar = true) (hv : Reads v s) (h : Part t m) :
    Reads (.obj ((k, v) :: m)) ('{' :: (memberText nl k s ++ t ++ ['\n', '}'])) := by
  obtain ⟨L, h1, rfl, rfl⟩ := h
  have := reads_obj (members_read L k s v hk hv h1) (w := ['\n']) (ws_of (by decide))
  simpa using this

/-! ### The parts -/

theorem sp_reads {v : Json} {s : List Char} (h : Reads v s) : Reads v (' ' :: s) := reads_ws (ws := [' ']) (ws_of (by decide)) h

theorem list_part (name : String) (hn : name.toList.all plainChar = true) (ts : List (List Char)) (h : ∀ t ∈ ts, t.all plainChar = true) :
    Part (",\n  \"".toList ++ name.toList ++ "\": [\n".toList ++ printTokens ts ++ "\n  ]".toList) (field name (some (strings ts))) := by
  have := Part.one hn (sp_reads (list_reads ts h))
  have e : ",\n  \"".toList ++ name.toList ++ "\": [\n".toList ++ printTokens ts ++ "\n  ]".toList =
      ',' :: memberText nl name.toList (' ' :: '[' :: '\n' :: (printTokens ts ++ ['\n', ' ', ' ', ']'])) := by
    have e1 : ",\n  \"".toList = [',', '\n', ' ', ' ', '"'] := rfl
    have e2 : "\": [\n".toList = ['"', ':', ' ', '[', '\n'] := rfl
    have e3 : "\n  ]".toList = ['\n', ' ', ' ', ']'] := rfl
    rw [e1, e2, e3]
    simp [memberText, nl]
  rw [e]
  exact this

/-- An optional list of values: what is printed is read as the list of strings. -/
theorem printList_part {α β : Type} {R : α → β → Prop} (name : String) (hn : name.toList.all plainChar = true) (x : Option α) (f : α → Res (List Char)) (g : β → List (List Char))
    (h : ∀ a, x = some a → ∃ b, f a = .ok (printTokens (g b)) ∧ R a b ∧ ∀ t ∈ g b, t.all plainChar = true) :
    ∃ txt y, printList name x f = .ok txt ∧ Both R x y ∧ Part txt (field name (y.map (fun b => strings (g b)))) := by
  cases x with
  | none => exact ⟨[], none, rfl, .inl ⟨rfl, rfl⟩, Part.nil⟩
  | some a =>
    obtain ⟨b, h1, h2, h3⟩ := h a rfl
    refine ⟨_, some b, ?_, .inr ⟨a, b, rfl, rfl, h2⟩, list_part name hn (g b) h3⟩
    unfold printList
    dsimp only
    rw [h1]
    rfl

theorem proto_text (p : BM.Proto) : protostr p.num.toNat = p.text ∧ p.text.all plainChar = true := by cases p <;> decide

theorem protos_read : ∀ (l : List BM.Proto) (p : BM.Proto),
    ElemsRead (((p :: l).map BM.Proto.text).map .str) (' ' :: '"' :: (p.text ++ '"' :: l.flatMap (fun p => [',', ' ', '"'] ++ p.text ++ ['"'])))
  | [], p => by
    have := elems_one (sp_reads (reads_str (proto_text p).2))
    simpa using this
  | q :: l, p => by
    have := elems_cons (sp_reads (reads_str (proto_text p).2)) (protos_read l q)
    simpa using this

theorem proto_part (l : List BM.Proto) (hl : l ≠ []) : Part (",\n".toList ++ printProto (l.map (fun p => p.num.toNat))) (field "protocols" (some (strings (l.map BM.Proto.text)))) := by
  cases l with
  | nil => exact absurd rfl hl
  | cons p l =>
    have h1 := Part.one (k := "protocols".toList) (by decide) (sp_reads (reads_arr (protos_read l p) (w := [' ']) (ws_of (by decide))))
    have e : ",\n".toList ++ printProto ((p :: l).map (fun p => p.num.toNat)) =
        ',' :: memberText nl "protocols".toList (' ' :: '[' :: (' ' :: '"' :: (p.text ++ '"' :: l.flatMap (fun p => [',', ' ', '"'] ++ p.text ++ ['"'])) ++ ([' '] ++ [']']))) := by
      have e1 : ",\n".toList = [',', '\n'] := rfl
      have e2 : "  \"protocols\": [ \"".toList = [' ', ' ', '"'] ++ "protocols".toList ++ ['"', ':', ' ', '[', ' ', '"'] := rfl
      have e3 : " ]".toList = [' ', ']'] := rfl
      have e4 : ", \"".toList = [',', ' ', '"'] := rfl
      have e5 : (l.map (fun p => p.num.toNat)).flatMap (fun p => ", \"".toList ++ protostr p ++ ['"']) = l.flatMap (fun p => [',', ' ', '"'] ++ p.text ++ ['"']) := by
        rw [List.flatMap_map]
        congr 1
        funext q
        rw [(proto_text q).1, e4]
      unfold printProto
      simp only [List.map_cons, List.headD_cons, List.drop_succ_cons, List.drop_zero]
      rw [e5, (proto_text p).1, e1, e2, e3]
      simp only [memberText, nl, List.append_assoc, List.cons_append, List.nil_append]
    rw [e]
    exact h1

theorem parseProtocol_ok {l : List (List Char)} {ps : List Nat} (h : parseProtocol l = some ps) (hl : l ≠ []) : ∃ q : List BM.Proto, q ≠ [] ∧ ps = q.map (fun p => p.num.toNat) := by
  unfold parseProtocol at h
  split at h
  · rename_i hall
    have h := (Option.some.inj h).symm
    refine ⟨(if l.any (CText.caseEq "tcp".toList) = true then [.tcp] else []) ++ (if l.any (CText.caseEq "udp".toList) = true then [.udp] else []) ++ (if l.any (CText.caseEq "sctp".toList) = true then [.sctp] else []), ?_, ?_⟩
    · cases l with
      | nil => exact absurd rfl hl
      | cons s l =>
        rw [List.all_cons, Bool.and_eq_true] at hall
        have := hall.1
        simp only [Bool.or_eq_true] at this
        rcases this with (h1 | h1) | h1
        · rw [if_pos (show (s :: l).any (CText.caseEq "tcp".toList) = true by rw [List.any_cons, h1]; rfl)]; simp
        · rw [if_pos (show (s :: l).any (CText.caseEq "udp".toList) = true by rw [List.any_cons, h1]; rfl)]; simp
        · rw [if_pos (show (s :: l).any (CText.caseEq "sctp".toList) = true by rw [List.any_cons, h1]; rfl)]; simp
    · rw [h]
      rw [List.map_append, List.map_append]
      congr 1
      · congr 1
        · split <;> rfl
        · split <;> rfl
      · split <;> rfl
  · cases h

theorem num_part (name : String) (hn : name.toList.all plainChar = true) (txt : String) (ht : txt.toList = [',', '\n', ' ', ' ', '"'] ++ name.toList ++ ['"', ':', ' ']) (n : Nat) :
    Part (txt.toList ++ CText.dec n) (field name (some (.num n))) := by
  have := Part.one hn (sp_reads (reads_num n))
  rw [ht]
  simpa [memberText, nl, field, CText.dec] using this

/-! ### A flow -/

/-- What is known about a flow that can be listed. -/
structure Printable (f : Flow) : Prop where
  name : f.name.all plainChar = true
  priority : 0 ≤ f.priority ∧ f.priority ≤ 2147483647
  protocols : ∀ ps, f.protocols = some ps → ∃ q : List BM.Proto, q ≠ [] ∧ ps = q.map (fun p => p.num.toNat)
  dsts : ∀ cs, f.dsts = some cs → ∀ c ∈ cs, CidrOK c
  srcs : ∀ cs, f.srcs = some cs → ∀ c ∈ cs, CidrOK c
  dports : ∀ p, f.dports = some p → PortsFit p
  sports : ∀ p, f.sports = some p → PortsFit p
  mtch : ∀ m, f.mtch = some m → Parsed m ∧ (Match.fullText m).length < 1024

theorem printFlow_ok {f : Flow} (h : Printable f) (cnt : Nat) (ref : Option (Nat → Res (List Char))) (tgt : Option (List Char)) (hr : Both (fun r t => r f.userRef = .ok t ∧ t.all plainChar = true) ref tgt) :
    ∃ (d : Listed) (txt : List Char), printFlow f cnt ref = .ok txt ∧ Lists f d ∧ d.count = cnt ∧ d.target = tgt ∧ Reads d.json txt := by
  obtain ⟨t1, y1, a1, b1, c1⟩ := printList_part (R := Each SameNet) "dests" (by decide) f.dsts printCidrs (fun ns => ns.map Net.text) (fun cs hcs => by
    obtain ⟨ns, k1, k2, k3, _⟩ := printCidrs_ok cs (h.dsts cs hcs)
    exact ⟨ns, k2, k3, by simpa using k1⟩)
  obtain ⟨t2, y2, a2, b2, c2⟩ := printList_part (R := SamePorts) "dports" (by decide) f.dports printPorts (fun l => l.map portText) (fun p hp => by
    obtain ⟨l, k1, k2, _⟩ := printPorts_ok (h.dports p hp)
    exact ⟨l, k1, k2, by intro t ht; rw [List.mem_map] at ht; obtain ⟨r, _, rfl⟩ := ht; exact portText_plain r⟩)
  obtain ⟨t3, y3, a3, b3, c3⟩ := printList_part (R := Each SameNet) "srcs" (by decide) f.srcs printCidrs (fun ns => ns.map Net.text) (fun cs hcs => by
    obtain ⟨ns, k1, k2, k3, _⟩ := printCidrs_ok cs (h.srcs cs hcs)
    exact ⟨ns, k2, k3, by simpa using k1⟩)
  obtain ⟨t4, y4, a4, b4, c4⟩ := printList_part (R := SamePorts) "sports" (by decide) f.sports printPorts (fun l => l.map portText) (fun p hp => by
    obtain ⟨l, k1, k2, _⟩ := printPorts_ok (h.sports p hp)
    exact ⟨l, k1, k2, by intro t ht; rw [List.mem_map] at ht; obtain ⟨r, _, rfl⟩ := ht; exact portText_plain r⟩)
  obtain ⟨t5, y5, a5, b5, c5⟩ := printList_part (R := Each SameMatch) "match" (by decide) f.mtch printMatch (fun es => es.map BM.Expr.text) (fun m hm => by
    obtain ⟨es, k1, k2, k3⟩ := printMatch_ok (h.mtch m hm).1 (h.mtch m hm).2
    exact ⟨es, k1, k2, by intro t ht; rw [List.mem_map] at ht; obtain ⟨e, he, rfl⟩ := ht; exact k3 e he⟩)
  obtain ⟨y0, b0, c0⟩ : ∃ y, Both (fun ps (l : List BM.Proto) => l ≠ [] ∧ ps = l.map (fun p => p.num.toNat)) f.protocols y ∧
      Part (printProtocols f) (field "protocols" (y.map (fun l => strings (l.map BM.Proto.text)))) := by
    have e0 : printProtocols f = match f.protocols with | none => [] | some ps => ",\n".toList ++ printProto ps := rfl
    rw [e0]
    cases hp : f.protocols with
    | none => exact ⟨none, .inl ⟨rfl, rfl⟩, Part.nil⟩
    | some ps =>
      obtain ⟨q, hq, rfl⟩ := h.protocols ps hp
      exact ⟨some q, .inr ⟨_, q, rfl, rfl, hq, rfl⟩, proto_part q hq⟩
  obtain ⟨t6, a6, c6⟩ : ∃ t, printUser f ref = .ok t ∧ Part t (field "user_ref" (tgt.map .str)) := by
    rcases hr with ⟨rfl, rfl⟩ | ⟨r, t, rfl, rfl, h1, h2⟩
    · exact ⟨[], rfl, Part.nil⟩
    · refine ⟨",\n  \"user_ref\": \"".toList ++ t ++ ['"'], by
        show (r f.userRef >>= fun t => Res.ok (",\n  \"user_ref\": \"".toList ++ t ++ ['"'])) = _
        rw [h1]
        rfl, ?_⟩
      have := Part.one (k := "user_ref".toList) (by decide) (sp_reads (reads_str h2))
      have e1 : ",\n  \"user_ref\": \"".toList = [',', '\n', ' ', ' ', '"'] ++ "user_ref".toList ++ ['"', ':', ' ', '"'] := rfl
      rw [e1]
      simpa [memberText, nl, field] using this
  have c7 : Part (if f.udpencap > 0 then ",\n  \"udpencap\": ".toList ++ CText.dec f.udpencap else []) (field "udpencap" (if f.udpencap > 0 then some (.num f.udpencap) else none)) := by
    by_cases hu : f.udpencap > 0
    · rw [if_pos hu, if_pos hu]
      exact num_part "udpencap" (by decide) ",\n  \"udpencap\": " rfl _
    · rw [if_neg hu, if_neg hu]
      exact Part.nil
  have c8 := num_part "matches_count" (by decide) ",\n  \"matches_count\": " rfl cnt
  have c9 := num_part "priority" (by decide) ",\n  \"priority\": " rfl (asUnsigned f.priority)
  have hall := ((((((((c9.append c0).append c1).append c2).append c3).append c4).append c5).append c7).append c8).append c6
  have hobj := object_reads (k := "name".toList) (by decide) (sp_reads (reads_str h.name)) hall
  refine ⟨⟨f.name, asUnsigned f.priority, y0, y1, y2, y3, y4, y5, f.udpencap, cnt, tgt⟩, _, ?_, ⟨rfl, ?_, b0, b1, b2, b3, b4, b5, rfl⟩, rfl, rfl, Reads.of_eq hobj ?_⟩
  · unfold printFlow
    rw [a1, a2, a3, a4, a5]
    simp only [Res.ok_bind]
    rw [a6]
    simp only [Res.ok_bind, Res.pure_eq]
    refine congrArg Res.ok ?_
    have e1 : "{\n  \"name\": \"".toList = ['{', '\n', ' ', ' ', '"'] ++ "name".toList ++ ['"', ':', ' ', '"'] := rfl
    have e2 : "\",\n  \"priority\": ".toList = '"' :: ",\n  \"priority\": ".toList := rfl
    have e3 : "\n}".toList = ['\n', '}'] := rfl
    rw [e1, e2, e3]
    simp only [memberText, nl, List.append_assoc, List.cons_append, List.nil_append]
  · simp only [asUnsigned]
    have := h.priority
    omega
  · unfold Listed.json
    have e : field "name" (some (.str f.name)) = [("name".toList, .str f.name)] := rfl
    rw [e]
    simp only [List.append_assoc, List.cons_append, List.nil_append]

end Nfqlb.Flow
