import Verif.Spec.Addr
import Verif.Proof.FlowText
import Verif.Proof.FlowPrint
import Verif.Proof.RemoteCmd

/-! Lemmas about `parseAddress` and `nfqlb fwmark`. -/

set_option autoImplicit false

namespace Nfqlb.Addr

open Nfqlb Nfqlb.Spec Nfqlb.Spec.FL Nfqlb.Spec.Adr Nfqlb.Flow

/-! ### Text -/

theorem takeWhile_to (c : Char) (l r : Str) (h : c ∉ l) : (l ++ c :: r).takeWhile (fun x => x != c) = l := by
  induction l with
  | nil => simp
  | cons x l ih =>
    simp only [List.mem_cons, not_or] at h
    rw [List.cons_append, List.takeWhile_cons_of_pos (by simpa using fun e => h.1 e.symm), ih h.2]

theorem dropWhile_to (c : Char) (l r : Str) (h : c ∉ l) : (l ++ c :: r).dropWhile (fun x => x != c) = c :: r := by
  induction l with
  | nil => simp
  | cons x l ih =>
    simp only [List.mem_cons, not_or] at h
    rw [List.cons_append, List.dropWhile_cons_of_pos (by simpa using fun e => h.1 e.symm), ih h.2]

theorem strchr_to (c : Char) (l r : Str) (h : c ∉ l) : CText.strchr c (l ++ c :: r) = some (c :: r) := by
  unfold CText.strchr
  rw [dropWhile_to c l r h]

theorem strrchr_to (c : Char) (l r : Str) (h : c ∉ r) : strrchr c (l ++ c :: r) = some (l, c :: r) := by
  unfold strrchr
  have e : (l ++ c :: r).reverse = r.reverse ++ c :: l.reverse := by simp
  have hr : c ∉ r.reverse := by simpa using h
  rw [if_pos (by simp), e, takeWhile_to c _ _ hr, dropWhile_to c _ _ hr]
  simp

theorem digits_no (n : Nat) (c : Char) (h : c.isDigit = false) : c ∉ Nat.toDigits 10 n := by
  intro hc
  have := Nat.isDigit_of_mem_toDigits (b := 10) (by omega) (by omega) hc
  rw [this] at h
  cases h

theorem dotted_no (a : Addr4) (c : Char) (h1 : c.isDigit = false) (h2 : c ≠ '.') : c ∉ dotted a := by
  intro hc
  rcases dotted_chars hc with h | h
  · rw [h] at h1; cases h1
  · exact h2 h

/-- Characters that no IPv6 address has. -/
theorem text_no (a : Addr6) (h : a.WF) (x : Char) (hx : hexDigit x = none) (h1 : x.isDigit = false) (h2 : x ≠ '.') (h3 : x ≠ ':') : x ∉ a.text := by
  have hg : ∀ g, GroupWF g → ∀ c ∈ g, c ≠ x := by
    rintro g hg c hc rfl
    have := hg.2.2 c hc
    rw [hx] at this
    cases this
  have hd : ∀ b, ∀ c ∈ dotted b, c ≠ x := by
    rintro b c hc rfl
    exact dotted_no b c h1 h2 hc
  have hgs : ∀ (gs : List (List Char)), (∀ g ∈ gs, GroupWF g) → ∀ c ∈ colons (gs ++ a.tail.toList.map dotted), c ≠ x := by
    intro gs h
    apply colons_chars (· ≠ x) (Ne.symm h3)
    intro g hm
    simp only [List.mem_append, List.mem_map] at hm
    rcases hm with hm | ⟨b, _, rfl⟩
    · exact hg g (h g hm)
    · exact hd b
  suffices ∀ c ∈ a.text, c ≠ x from fun hc => this x hc rfl
  intro c hc
  unfold Addr6.text at hc
  split at hc
  · simp only [List.mem_append, List.mem_cons, List.not_mem_nil, or_false] at hc
    rcases hc with (hc | hc) | hc
    · exact colons_chars (· ≠ x) (Ne.symm h3) a.left (fun g hm => hg g (h.1 g (by simp [hm]))) c hc
    · rcases hc with rfl | rfl <;> exact Ne.symm h3
    · exact hgs _ (fun g hm => h.1 g (by simp [hm])) c hc
  · exact hgs _ (fun g hm => h.1 g (by simp [hm])) c hc

theorem text_len45 (a : Addr6) (h : a.WF) : a.text.length ≤ 46 := by
  have hgs : ∀ (gs : List (List Char)), (∀ g ∈ gs, GroupWF g) → (colons (gs ++ a.tail.toList.map dotted)).length ≤ 5 * gs.length + 16 * a.tail.toList.length := by
    intro gs hg
    have h1 := colons_len (gs ++ a.tail.toList.map dotted)
    have h2 := sum_le gs 4 (fun g hm => (hg g hm).2.1)
    have h3 : ((a.tail.toList.map dotted).map (fun g => g.length + 1)).sum ≤ 16 * a.tail.toList.length := by
      cases a.tail with
      | none => simp
      | some b => have := dotted_len b; simp; omega
    rw [List.map_append, List.sum_append] at h1
    omega
  have ht : a.tail.toList.length ≤ 1 := by cases a.tail <;> simp
  have hl := h.2
  unfold Addr6.text
  split
  · rename_i hg
    rw [if_pos hg] at hl
    have h1 := colons_len a.left
    have h2 := sum_le a.left 4 (fun g hm => (h.1 g (by simp [hm])).2.1)
    have h3 := hgs a.right (fun g hm => h.1 g (by simp [hm]))
    simp only [List.length_append, List.length_cons, List.length_nil]
    omega
  · rename_i hg
    rw [if_neg hg] at hl
    have h3 := hgs a.left (fun g hm => h.1 g (by simp [hm]))
    omega

theorem atoi_digits (p : Nat) (h : p ≤ 2147483647) : Remote.atoi (Nat.toDigits 10 p) = p := by
  have := Remote.atoi_decimal (p : Int) (by omega) (by omega)
  unfold Spec.Rem.decimal at this
  rw [if_neg (by omega), Int.natAbs_natCast] at this
  exact this

theorem port_len (p : Nat) (h : p ≤ 65535) : (portText p).length ≤ 5 :=
  (Nat.length_toDigits_le_iff (by omega) (by omega)).2 (by omega)

/-! ### parseAddress -/

theorem split_bracket (t p : Str) (h : ']' ∉ t) : splitPort ('[' :: (t ++ ']' :: ':' :: p)) = some (t, p) := by
  simp only [splitPort]
  rw [strchr_to ']' t _ h, takeWhile_to ']' t _ h]
  rfl

theorem split_plain (t p : Str) (h : ':' ∉ t) (hb : t.head? ≠ some '[') : splitPort (t ++ ':' :: p) = some (t, p) := by
  unfold splitPort
  split
  · rename_i r he
    cases t with
    | nil => simp at he
    | cons c t =>
      simp only [List.cons_append, List.cons.injEq] at he
      exact absurd (by rw [List.head?_cons, he.1]) hb
  · rw [strchr_to ':' t _ h, takeWhile_to ':' t _ h]

theorem split_host (h : Host) (hw : h.WF) (p : Nat) : splitPort (hostPort h p) = some (h.text, portText p) := by
  cases h with
  | v4 a =>
    have e : hostPort (.v4 a) p = dotted a ++ ':' :: portText p := by simp [hostPort]
    rw [e]
    refine split_plain _ _ (dotted_no a ':' (by decide) (by decide)) ?_
    intro hh
    exact dotted_no a '[' (by decide) (by decide) (List.mem_of_mem_head? hh)
  | v6 a =>
    have e : hostPort (.v6 a) p = '[' :: (a.text ++ ']' :: ':' :: portText p) := by simp [hostPort]
    rw [e]
    exact split_bracket _ _ (text_no a hw ']' (by decide) (by decide) (by decide) (by decide))

theorem sock_len (h : Host) (hw : h.WF) (p : Nat) : (h.sock p).bytes.length ≤ 28 := by
  cases h with
  | v4 a => simp [Host.sock, Sock.bytes, Addr4.bytes]
  | v6 a =>
    have : a.bytes.length = 16 := by
      have := pton6_text a hw
      exact pton6_length this
    simp [Host.sock, Sock.bytes, this]

theorem parseTcp_host (gai : Gai) (hg : GaiOk gai) (t : Str) (h : Host) (hw : h.WF) (p : Nat) (hp : p ≤ 65535) (ht : splitPort t = some (h.text, portText p)) (buf : Buf) (hb : 28 ≤ buf.length) :
    parseTcp gai t buf = .ok (some ((h.sock p).bytes.map some ++ buf.drop (h.sock p).bytes.length, (h.sock p).bytes.length)) := by
  unfold parseTcp
  rw [ht]
  have ha : Remote.atoi (portText p) = p := atoi_digits p (by omega)
  have hs := sock_len h hw p
  simp only [ha, hg.numeric h p hw hp]
  rw [if_neg (by omega)]
  unfold copyTo
  rw [if_pos (by omega)]
  rfl

theorem parse_tcp (gai : Gai) (t : Str) (buf : Buf) : parseAddress gai (['t', 'c', 'p', ':'] ++ t) buf = parseTcp gai t buf := by
  unfold parseAddress
  rw [if_pos (by simp)]
  simp

theorem parse_unix (gai : Gai) (t : Str) (buf : Buf) : parseAddress gai (['u', 'n', 'i', 'x', ':'] ++ t) buf = parseUnix t buf := by
  unfold parseAddress
  rw [if_neg (by simp), if_pos (by simp)]
  simp

/-! ### fwmark -/

theorem adrText_host (h : Host) (hw : h.WF) (p : Nat) (hp : p ≤ 65535) :
    ∃ t, adrText (hostPort h p) = .ok (['t', 'c', 'p', ':'] ++ t) ∧ ∃ h' : Host, h'.WF ∧ splitPort t = some (h'.text, portText p) ∧ (∃ a : Addr6, h' = .v6 a ∧ a.bytes = h.bytes) := by
  have hl := port_len p hp
  cases h with
  | v4 a =>
    have hd := dotted_len a
    have hno : '[' ∉ hostPort (.v4 a) p := by
      simp only [hostPort, List.mem_append, List.mem_cons, List.not_mem_nil, or_false, not_or]
      exact ⟨⟨dotted_no a '[' (by decide) (by decide), by decide⟩, digits_no p '[' (by decide)⟩
    have e : hostPort (.v4 a) p = dotted a ++ ':' :: portText p := by simp [hostPort]
    have hc : ':' ∉ portText p := digits_no p ':' (by decide)
    refine ⟨'[' :: ((mappedText a).text ++ ']' :: ':' :: portText p), ?_, .v6 (mappedText a), mappedText_WF a, split_bracket _ _ (text_no _ (mappedText_WF a) ']' (by decide) (by decide) (by decide) (by decide)),
      mappedText a, rfl, mappedText_bytes a⟩
    unfold adrText
    rw [if_neg (by rw [e]; simp only [List.length_append, List.length_cons]; omega), if_neg hno, e, strrchr_to ':' _ _ hc]
    simp only
    rw [show (['t', 'c', 'p', ':', '[', ':', ':', 'f', 'f', 'f', 'f', ':'] ++ (dotted a ++ ':' :: portText p)) = ['t', 'c', 'p', ':', '[', ':', ':', 'f', 'f', 'f', 'f', ':'] ++ dotted a ++ ':' :: portText p by simp,
      strrchr_to ':' _ _ hc]
    simp only
    rw [if_pos (by simp only [List.length_append, List.length_cons, List.length_nil]; omega), mappedText_text]
    simp
  | v6 a =>
    have hd := text_len45 a hw
    refine ⟨hostPort (.v6 a) p, ?_, .v6 a, hw, split_host (.v6 a) hw p, a, rfl, rfl⟩
    unfold adrText
    rw [if_neg (by simp only [hostPort, List.length_append, List.length_cons, List.length_nil]; omega), if_pos (by simp [hostPort])]

theorem mapM_some (l : List UInt8) : (l.map some).mapM id = some l := by
  induction l with
  | nil => rfl
  | cons a l ih => simp [ih]

/-- A host and a port are read from the structure, whatever was there before. -/
theorem adrParse_host (gai : Gai) (hg : GaiOk gai) (h : Host) (hw : h.WF) (p : Nat) (hp : p ≤ 65535) (buf : Buf) (hb : buf.length = 28) :
    ∃ adr, adrParse gai (some (hostPort h p)) buf = .ok adr ∧ adr.length = 28 ∧ sin6Addr adr = .ok h.bytes ∧ sin6Port adr = .ok (portBytes p) := by
  obtain ⟨t, h1, h', hw', h2, a, rfl, ha⟩ := adrText_host h hw p hp
  have hlen : a.bytes.length = 16 := pton6_length (pton6_text a hw')
  have h3 := parseTcp_host gai hg t (.v6 a) hw' p hp h2 buf (by omega)
  have hbl : (Host.sock (.v6 a) p).bytes.length = 28 := by simp [Host.sock, Sock.bytes, hlen]
  refine ⟨(Host.sock (.v6 a) p).bytes.map some, ?_, by simp [hbl], ?_, ?_⟩
  · unfold adrParse
    simp only [h1, Res.ok_bind, parse_tcp, h3]
    rw [hbl, List.drop_of_length_le (by omega), List.append_nil]
    rfl
  · unfold sin6Addr readN
    rw [if_pos (by simp [hbl]), ← List.map_drop, ← List.map_take, mapM_some]
    simp only [Host.sock, Sock.bytes]
    rw [List.append_assoc, List.drop_append_of_le_length (by simp), ← ha]
    simp [hlen]
  · unfold sin6Port readN
    rw [if_pos (by simp [hbl]), ← List.map_drop, ← List.map_take, mapM_some]
    simp only [Host.sock, Sock.bytes]
    rfl

/-- The command for two hosts. -/
theorem fwmark_hosts (gai : Gai) (hg : GaiOk gai) (s d : Host) (hs : s.WF) (hd : d.WF) (sp dp : Nat) (hsp : sp ≤ 65535) (hdp : dp ≤ 65535) (shm : Option Maglev.Mag) (proto mode : Option Str) :
    cmdFwmark gai ⟨shm, some (hostPort s sp), some (hostPort d dp), proto, mode⟩ = (do
      let m ← hashModeOf mode
      let hash ← hashOf { Key.zero with src := s.bytes, dst := d.bytes, sport := portBytes sp, dport := portBytes dp } proto m
      match shm with
      | none => return ⟨hash, none⟩
      | some d => do
        let f ← lookUp d hash
        return ⟨hash, some f⟩) := by
  obtain ⟨a1, h1, h2, h3, h4⟩ := adrParse_host gai hg s hs sp hsp (List.replicate 28 none) (by simp)
  obtain ⟨a2, k1, k2, k3, k4⟩ := adrParse_host gai hg d hd dp hdp a1 h2
  unfold cmdFwmark
  simp only [h1, h3, h4, k1, k3, k4, Res.ok_bind]
  rfl

theorem lookUp_target (d : Maglev.Mag) (hash : Nat) (t : Int) (h : Maglev.target d hash = .ok t) :
    ∃ a f, lookUp d hash = .ok (hash % d.M, a, f) ∧ d.lookup[hash % d.M]? = some a ∧ (0 ≤ t → f = t) ∧ (t < 0 → f < 0) := by
  unfold Maglev.target at h
  unfold lookUp
  split at h
  · cases h
  · rename_i hm
    rw [if_neg hm]
    split at h
    · cases h
    · rename_i l hl
      simp only [hl]
      split at h
      · rename_i h0
        rw [if_neg (by omega)]
        split at h
        · cases h
        · rename_i fw hfw
          simp only [hfw]
          simp only [Res.ok.injEq] at h
          subst h
          exact ⟨l, fw, rfl, rfl, fun _ => rfl, id⟩
      · rename_i h0
        simp only [Res.ok.injEq] at h
        subst h
        exact ⟨l, -1, by rw [if_pos (by omega)], rfl, fun h => absurd h h0, fun _ => by decide⟩

/-! ### No undefined behaviour -/

theorem copyTo_ok (buf : Buf) (bs : List UInt8) (h : bs.length ≤ buf.length) : copyTo buf bs = .ok (bs.map some ++ buf.drop bs.length) := by
  unfold copyTo; rw [if_pos h]

theorem parseTcp_total (gai : Gai) (hg : GaiOk gai) (t : Str) (buf : Buf) (hb : 28 ≤ buf.length) :
    parseTcp gai t buf = .ok none ∨ ∃ h p s, splitPort t = some (h, p) ∧ gai h p = some s ∧ parseTcp gai t buf = .ok (some (s.bytes.map some ++ buf.drop s.bytes.length, s.bytes.length)) ∧ s.bytes.length ≤ 28 := by
  unfold parseTcp
  cases hs : splitPort t with
  | none => exact .inl rfl
  | some hp =>
    obtain ⟨h, p⟩ := hp
    simp only
    split
    · exact .inl rfl
    · cases hgai : gai h p with
      | none => exact .inl rfl
      | some s =>
        have hl : s.bytes.length ≤ 28 := by
          cases s with
          | in4 q a => have := hg.size4 _ _ _ _ hgai; simp [Sock.bytes, this]
          | in6 q a c => have := hg.size6 _ _ _ _ _ hgai; simp [Sock.bytes, this]
        refine .inr ⟨h, p, s, rfl, hgai, ?_, hl⟩
        simp only [copyTo_ok buf s.bytes (by omega)]
        rfl

theorem takeWhile_not (c : Char) (l : Str) : c ∉ l.takeWhile (fun x => x != c) := by
  induction l with
  | nil => simp
  | cons x l ih =>
    rw [List.takeWhile_cons]
    split
    · rename_i h
      simp only [List.mem_cons, not_or]
      exact ⟨fun e => by rw [e] at h; simp at h, ih⟩
    · simp

theorem dropWhile_head (c : Char) (l r : Str) (x : Char) (h : l.dropWhile (fun x => x != c) = x :: r) : x = c := by
  induction l with
  | nil => cases h
  | cons y l ih =>
    rw [List.dropWhile_cons] at h
    split at h
    · exact ih h
    · rename_i hy
      simp only [List.cons.injEq] at h
      rw [← h.1]
      simpa using hy

theorem dropWhile_split (c : Char) (l r : Str) (x : Char) (h : l.dropWhile (fun x => x != c) = x :: r) : l = l.takeWhile (fun x => x != c) ++ c :: r := by
  have hx := dropWhile_head c l r x h
  subst hx
  rw [← h, List.takeWhile_append_dropWhile]

theorem strchr_inv (c : Char) (s r : Str) (x : Char) (h : CText.strchr c s = some (x :: r)) : s = s.takeWhile (fun x => x != c) ++ c :: r := by
  unfold CText.strchr at h
  split at h
  · cases h
  · simp only [Option.some.injEq] at h
    exact dropWhile_split c s r x h

theorem split_bracket_inv (r h p : Str) (hs : splitPort ('[' :: r) = some (h, p)) : r = h ++ ']' :: ':' :: p ∧ ']' ∉ h := by
  simp only [splitPort] at hs
  split at hs
  · rename_i he
    simp only [Option.some.injEq, Prod.mk.injEq] at hs
    obtain ⟨rfl, rfl⟩ := hs
    exact ⟨strchr_inv _ _ _ _ he, takeWhile_not _ _⟩
  · cases hs

theorem split_plain_inv (s h p : Str) (hb : s.head? ≠ some '[') (hs : splitPort s = some (h, p)) : s = h ++ ':' :: p ∧ ':' ∉ h := by
  unfold splitPort at hs
  split at hs
  · exact absurd rfl hb
  · split at hs
    · rename_i he
      simp only [Option.some.injEq, Prod.mk.injEq] at hs
      obtain ⟨rfl, rfl⟩ := hs
      exact ⟨strchr_inv _ _ _ _ he, takeWhile_not _ _⟩
    · cases hs

theorem strrchr_inv (c : Char) (s a b : Str) (h : strrchr c s = some (a, b)) : ∃ r, b = c :: r ∧ s = a ++ c :: r ∧ c ∉ r := by
  unfold strrchr at h
  split at h
  · rename_i hc
    simp only [Option.some.injEq, Prod.mk.injEq] at h
    obtain ⟨rfl, rfl⟩ := h
    refine ⟨_, rfl, ?_, by simpa using takeWhile_not c s.reverse⟩
    cases hd : s.reverse.dropWhile (fun x => x != c) with
    | nil =>
      have h2 := List.takeWhile_append_dropWhile (p := fun x => x != c) (l := s.reverse)
      rw [hd, List.append_nil] at h2
      have h3 := takeWhile_not c s.reverse
      rw [h2] at h3
      exact absurd (by simpa using hc) h3
    | cons x r =>
      have := dropWhile_split _ _ _ _ hd
      have h2 := congrArg List.reverse this
      rw [List.reverse_reverse] at h2
      simpa using h2
  · cases h

/-- The address read is always initialised, except for an IPv4 address in brackets. -/
theorem adrParse_total (gai : Gai) (hg : GaiOk gai) (s : Str) (hs : ¬ V4Brackets s) (buf : Buf) (hb : buf.length = 28) :
    adrParse gai (some s) buf = .die ∨ ∃ adr a p, adrParse gai (some s) buf = .ok adr ∧ adr.length = 28 ∧ sin6Addr adr = .ok a ∧ sin6Port adr = .ok p := by
  have main : ∀ t, adrText s = .ok (['t', 'c', 'p', ':'] ++ t) → (∀ h p, splitPort t = some (h, p) → ':' ∈ h ∨ '[' ∈ h ∨ '[' ∈ p) →
      adrParse gai (some s) buf = .die ∨ ∃ adr a p, adrParse gai (some s) buf = .ok adr ∧ adr.length = 28 ∧ sin6Addr adr = .ok a ∧ sin6Port adr = .ok p := by
    intro t ht hh
    unfold adrParse
    simp only [ht, Res.ok_bind, parse_tcp]
    rcases parseTcp_total gai hg t buf (by omega) with h | ⟨h, p, k, h1, h2, h3, h4⟩
    · rw [h]; exact .inl rfl
    · rw [h3]
      right
      have hc := hh h p h1
      cases k with
      | in4 q a =>
        have := hg.noV4 _ _ _ _ h2
        rcases hc with hc | hc | hc
        · exact absurd hc this.1
        · exact absurd hc this.2
        · rw [hg.letter _ _ ⟨'[', hc, .inr rfl⟩] at h2
          cases h2
      | in6 q a c =>
        obtain ⟨ha, hcl⟩ := hg.size6 _ _ _ _ _ h2
        have hbl : (Sock.in6 q a c).bytes.length = 28 := by simp [Sock.bytes, ha, hcl]
        refine ⟨(Sock.in6 q a c).bytes.map some, a, q, ?_, by simp [hbl], ?_, ?_⟩
        · simp only [Res.ok_bind]
          rw [hbl, List.drop_of_length_le (by omega), List.append_nil]
          rfl
        · unfold sin6Addr readN
          rw [if_pos (by simp [hbl]), ← List.map_drop, ← List.map_take, mapM_some]
          simp only [Sock.bytes]
          rw [List.append_assoc, List.drop_append_of_le_length (by simp)]
          simp [ha]
        · unfold sin6Port readN
          rw [if_pos (by simp [hbl]), ← List.map_drop, ← List.map_take, mapM_some]
          simp only [Sock.bytes]
          rfl
  by_cases hlen : s.length > 60
  · left; unfold adrParse adrText; simp only [if_pos hlen]; rfl
  · by_cases hbr : '[' ∈ s
    · refine main s (by unfold adrText; rw [if_neg hlen, if_pos hbr]) ?_
      intro h p hsp
      by_cases hd : s.head? = some '['
      · obtain ⟨r, rfl⟩ : ∃ r, s = '[' :: r := by
          cases s with
          | nil => cases hd
          | cons c r => simp only [List.head?_cons, Option.some.injEq] at hd; exact ⟨r, by rw [hd]⟩
        obtain ⟨h1, h2⟩ := split_bracket_inv r h p hsp
        by_cases hc : ':' ∈ h
        · exact .inl hc
        · exact absurd ⟨h, _, by rw [h1], h2, hc⟩ hs
      · obtain ⟨h1, h2⟩ := split_plain_inv s h p hd hsp
        rw [h1] at hbr
        simp only [List.mem_append, List.mem_cons] at hbr
        rcases hbr with hb | hb | hb
        · exact .inr (.inl hb)
        · exact absurd hb (by decide)
        · exact .inr (.inr hb)
    · cases hr : strrchr ':' s with
      | none => left; unfold adrParse adrText; simp only [if_neg hlen, if_neg hbr, hr]; rfl
      | some ab =>
        obtain ⟨a, b⟩ := ab
        obtain ⟨r, rfl, rfl, hc⟩ := strrchr_inv _ _ _ _ hr
        have e : ['t', 'c', 'p', ':', '[', ':', ':', 'f', 'f', 'f', 'f', ':'] ++ (a ++ ':' :: r) = (['t', 'c', 'p', ':', '[', ':', ':', 'f', 'f', 'f', 'f', ':'] ++ a) ++ ':' :: r := by simp
        refine main ('[' :: ([':', ':', 'f', 'f', 'f', 'f', ':'] ++ a ++ ']' :: ':' :: r)) ?_ ?_
        · unfold adrText
          simp only [List.length_append, List.length_cons] at hlen
          rw [if_neg (by simp only [List.length_append, List.length_cons]; omega), if_neg hbr, hr]
          simp only
          rw [e, strrchr_to ':' _ _ hc]
          simp only
          rw [if_pos (by simp only [List.length_append, List.length_cons, List.length_nil]; omega)]
          simp
        · intro h p hsp
          obtain ⟨h1, h2⟩ := split_bracket_inv _ h p hsp
          left
          cases h with
          | nil => simp at h1
          | cons x h => simp only [List.cons_append, List.cons.injEq] at h1; rw [← h1.1]; simp

/-! ### The C library -/

theorem lower_eq (c : Char) : CText.lower c = c.toLower := by
  unfold CText.lower Char.toLower
  simp only [Char.le_def, UInt32.le_iff_toNat_le, ge_iff_le]
  split <;> rename_i h
  · have h2 : c.val.toNat ≤ 90 := h.2
    generalize hd : (⟨c.val + ('a'.val - 'A'.val), _⟩ : Char) = d
    have : d.toNat = c.toNat + 32 := by
      rw [← hd]
      show (c.val + 32).toNat = c.val.toNat + 32
      rw [UInt32.toNat_add]
      have : (32 : UInt32).toNat = 32 := rfl
      omega
    rw [← this, Char.ofNat_toNat]
  · rfl

theorem parseProto_names (t : Str) (p : UInt8) (h : NamesProto t p) : parseProto t = p ∧ p ≠ 0 := by
  have e : t.map CText.lower = t.map Char.toLower := by simp only [funext lower_eq]
  unfold parseProto CText.caseEq
  rw [e]
  rcases h with ⟨rfl, h⟩ | ⟨rfl, h⟩ | ⟨rfl, h⟩ <;> rw [h] <;> decide

theorem pton4Loop_facts : ∀ (s : Str) (d : List UInt8) (st : Nat × Bool) (b : List UInt8), CText.pton4Loop s d st = some b → (∀ c ∈ s, c.isDigit = true ∨ c = '.') ∧ b.length = 4
  | [], d, st, b, h => by
    unfold CText.pton4Loop at h
    split at h
    · rename_i hc
      simp only [Option.some.injEq] at h
      subst h
      exact ⟨by simp, by simp [hc.2]⟩
    · cases h
  | c :: s, d, st, b, h => by
    unfold CText.pton4Loop at h
    split at h
    · rename_i hd
      split at h
      · obtain ⟨h1, h2⟩ := pton4Loop_facts _ _ _ _ h
        refine ⟨?_, h2⟩
        intro x hx
        simp only [List.mem_cons] at hx
        rcases hx with rfl | hx
        · exact .inl hd
        · exact h1 x hx
      · cases h
    · split at h
      · rename_i hd
        split at h
        · cases h
        · obtain ⟨h1, h2⟩ := pton4Loop_facts _ _ _ _ h
          refine ⟨?_, h2⟩
          intro x hx
          simp only [List.mem_cons] at hx
          rcases hx with rfl | hx
          · exact .inr hd.1
          · exact h1 x hx
      · cases h

theorem pton4_no (s : Str) (b : List UInt8) (h : CText.pton4 s = some b) (c : Char) (h1 : c.isDigit = false) (h2 : c ≠ '.') : c ∉ s := by
  intro hc
  rcases (pton4Loop_facts _ _ _ _ h).1 c hc with h | h
  · rw [h] at h1; cases h1
  · exact h2 h

theorem strtoul_digits (p : Nat) (hp : p ≤ 65535) : strtoul (Nat.toDigits 10 p) = some p := by
  have hd := @RS.digits_isDigit p
  obtain ⟨c, cs, hc⟩ : ∃ c cs, Nat.toDigits 10 p = c :: cs := by
    cases h : Nat.toDigits 10 p with
    | nil => exact absurd h Nat.toDigits_ne_nil
    | cons c cs => exact ⟨c, cs, rfl⟩
  have hcd : c.isDigit = true := hd (by rw [hc]; simp)
  have hsp : CText.isSpace c = false := by
    unfold CText.isSpace
    simp only [Bool.or_eq_false_iff, beq_eq_false_iff_ne, ne_eq]
    refine ⟨⟨⟨⟨⟨?_, ?_⟩, ?_⟩, ?_⟩, ?_⟩, ?_⟩ <;> exact RS.isDigit_ne hcd (by decide)
  have hdrop : (Nat.toDigits 10 p).dropWhile CText.isSpace = Nat.toDigits 10 p := by
    rw [hc, List.dropWhile_cons_of_neg (by simp [hsp])]
  have hhead : (Nat.toDigits 10 p).head? = some c := by rw [hc]; rfl
  obtain ⟨_, t2⟩ := RS.takeWhile_digits p [] (by simp)
  rw [List.append_nil] at t2
  have hm : (some c == some '-') = false := by
    simp only [beq_eq_false_iff_ne, ne_eq, Option.some.injEq]
    exact RS.isDigit_ne hcd (by decide)
  have hpl : (some c == some '+') = false := by
    simp only [beq_eq_false_iff_ne, ne_eq, Option.some.injEq]
    exact RS.isDigit_ne hcd (by decide)
  unfold strtoul
  simp only [hdrop, hhead, hm, hpl, Bool.or_self, Bool.false_eq_true, if_false, t2, Nat.ofDigitChars_ten_toDigits]
  rw [if_neg (by rw [hc]; simp), if_neg (by omega)]

theorem mem_dropWhile (p : Char → Bool) (c : Char) (s : Str) (h : c ∈ s) (hp : p c = false) : c ∈ s.dropWhile p := by
  induction s with
  | nil => cases h
  | cons x s ih =>
    rw [List.dropWhile_cons]
    split
    · rename_i hx
      simp only [List.mem_cons] at h
      rcases h with rfl | h
      · rw [hp] at hx; cases hx
      · exact ih h
    · exact h

theorem strtoul_none (s : Str) (c : Char) (hc : c ∈ s) (h1 : CText.isSpace c = false) (h2 : c.isDigit = false) (h3 : c ≠ '-') (h4 : c ≠ '+') : strtoul s = none := by
  unfold strtoul
  have m1 := mem_dropWhile CText.isSpace c s hc h1
  generalize s.dropWhile CText.isSpace = t at m1
  simp only
  have m2 : c ∈ (if (t.head? == some '-' || t.head? == some '+') = true then t.drop 1 else t) := by
    split
    · rename_i hh
      cases t with
      | nil => cases m1
      | cons x t =>
        simp only [List.mem_cons] at m1
        rcases m1 with rfl | m1
        · simp only [List.head?_cons, Bool.or_eq_true, beq_iff_eq, Option.some.injEq] at hh
          rcases hh with hh | hh
          · exact absurd hh h3
          · exact absurd hh h4
        · exact m1
    · exact m1
  rw [if_pos]
  right
  intro hn
  have := mem_dropWhile Char.isDigit c _ m2 h2
  rw [hn] at this
  cases this

theorem alpha_facts (c : Char) (h : c.isAlpha = true) : CText.isSpace c = false ∧ c.isDigit = false ∧ c ≠ '-' ∧ c ≠ '+' := by
  have hne : ∀ d : Char, d.isAlpha = false → c ≠ d := by
    rintro d hd rfl
    rw [h] at hd
    cases hd
  refine ⟨?_, ?_, hne _ (by decide), hne _ (by decide)⟩
  · unfold CText.isSpace
    simp only [Bool.or_eq_false_iff, beq_eq_false_iff_ne, ne_eq]
    refine ⟨⟨⟨⟨⟨?_, ?_⟩, ?_⟩, ?_⟩, ?_⟩, ?_⟩ <;> exact hne _ (by decide)
  · simp only [Char.isAlpha, Char.isUpper, Char.isLower, Bool.or_eq_true, Bool.and_eq_true, decide_eq_true_eq, ge_iff_le, UInt32.le_iff_toNat_le] at h
    simp only [Char.isDigit, Bool.and_eq_false_iff, decide_eq_false_iff_not, ge_iff_le, UInt32.le_iff_toNat_le]
    have e1 : (97 : UInt32).toNat = 97 := rfl
    have e2 : (65 : UInt32).toNat = 65 := rfl
    have e3 : (57 : UInt32).toNat = 57 := rfl
    right
    simp at *
    omega

theorem glibc_ok : GaiOk glibc where
  numeric := by
    intro h p hw hp
    have hne : portText p ≠ [] := Nat.toDigits_ne_nil
    have hs : strtoul (portText p) = some p := strtoul_digits p hp
    have hm : p % 65536 = p := Nat.mod_eq_of_lt (by omega)
    unfold glibc
    simp only [if_neg hne, hs, hm]
    rw [if_neg (by unfold u32; omega)]
    cases h with
    | v4 a => simp only [Host.text, pton4_dotted, Host.sock]
    | v6 a =>
      have h4 : CText.pton4 a.text = none := by
        cases hx : CText.pton4 a.text with
        | none => rfl
        | some b => exact absurd (text_colon a hw) (pton4_no _ _ hx ':' (by decide) (by decide))
      simp only [Host.text, h4, pton6_text a hw, Host.sock]
  letter := by
    rintro t s ⟨c, hc, h⟩
    have hne : s ≠ [] := by rintro rfl; cases hc
    have hs : strtoul s = none := by
      rcases h with h | rfl
      · obtain ⟨h1, h2, h3, h4⟩ := alpha_facts c h
        exact strtoul_none s c hc h1 h2 h3 h4
      · exact strtoul_none s '[' hc (by decide) (by decide) (by decide) (by decide)
    unfold glibc
    simp only [if_neg hne, hs]
  noV4 := by
    intro t s p a h
    unfold glibc at h
    simp only at h
    split at h
    · cases h
    · split at h
      · cases h
      · split at h
        · rename_i hx
          exact ⟨pton4_no _ _ hx ':' (by decide) (by decide), pton4_no _ _ hx '[' (by decide) (by decide)⟩
        · split at h <;> cases h
  size4 := by
    intro t s p a h
    unfold glibc at h
    simp only at h
    split at h
    · cases h
    · split at h
      · cases h
      · split at h
        · rename_i hx
          simp only [Option.some.injEq, Sock.in4.injEq] at h
          rw [← h.2]
          exact (pton4Loop_facts _ _ _ _ hx).2
        · split at h <;> cases h
  size6 := by
    intro t s p a c h
    unfold glibc at h
    simp only at h
    split at h
    · cases h
    · split at h
      · cases h
      · split at h
        · cases h
        · split at h
          · rename_i hx
            simp only [Option.some.injEq, Sock.in6.injEq] at h
            obtain ⟨_, rfl, rfl⟩ := h
            exact ⟨pton6_length hx, rfl⟩
          · cases h

end Nfqlb.Addr
