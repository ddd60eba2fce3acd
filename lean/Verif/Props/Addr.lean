import Verif.Proof.Addr
import Verif.Props.Lb
import Verif.Props.Options

/-! Properties C73 (socket addresses in text) and C74 (`nfqlb fwmark` tells what `nfqlb lb` does). -/

set_option autoImplicit false

namespace Nfqlb.Props

open Nfqlb Nfqlb.Maglev Nfqlb.Addr Nfqlb.Spec.Adr
open Nfqlb.Spec (V4 V6 L4 Addr4 HasPorts portNum flowKey activeMarks)
open Nfqlb.Spec.FL (Addr6 dotted)

/-! ### C73 -/

/-- C73. `tcp:host:port`, with brackets around an IPv6 address, gives the socket address of that host and port. The structure is written from its start, nothing else is. -/
theorem C73_tcp (gai : Gai) (hg : GaiOk gai) (h : Host) (hw : h.WF) (p : Nat) (hp : p ≤ 65535) (buf : Buf) (hb : 28 ≤ buf.length) :
    parseAddress gai ("tcp:".toList ++ hostPort h p) buf = .ok (some ((h.sock p).bytes.map some ++ buf.drop (h.sock p).bytes.length, (h.sock p).bytes.length)) := by
  rw [show "tcp:".toList = ['t', 'c', 'p', ':'] from rfl, parse_tcp]
  exact parseTcp_host gai hg _ h hw p hp (split_host h hw p) buf hb

/-- C73. The structures: family, port in network order, address. -/
theorem C73_layout (h : Host) (p : Nat) : (h.sock p).bytes = match h with
    | .v4 a => [2, 0, UInt8.ofNat (p / 256), UInt8.ofNat (p % 256), a.a, a.b, a.c, a.d] ++ List.replicate 8 0
    | .v6 a => [10, 0, UInt8.ofNat (p / 256), UInt8.ofNat (p % 256)] ++ List.replicate 4 0 ++ a.bytes ++ List.replicate 4 0 := by
  cases h <;> rfl

/-- C73 (partial: names of at most 106 characters). `unix:name` gives the address of that name in the abstract name space; the length does not count the NUL. -/
theorem C73_unix_partial (gai : Gai) (name : List Char) (hn : name.length ≤ 106) (buf : Buf) (hb : 110 ≤ buf.length) :
    parseAddress gai ("unix:".toList ++ name) buf =
      .ok (some ((([1, 0, 0] ++ name.map (fun c : Char => UInt8.ofNat c.toNat) ++ [0] : List UInt8).map some) ++ buf.drop (name.length + 4), name.length + 3)) := by
  rw [show "unix:".toList = ['u', 'n', 'i', 'x', ':'] from rfl, parse_unix]
  unfold parseUnix
  have hl : ([1, 0, 0] ++ name.map (fun c => UInt8.ofNat c.toNat) ++ [0] : List UInt8).length = name.length + 4 := by simp
  rw [if_pos (by omega), copyTo_ok _ _ (by omega), hl]
  simp only [Res.ok_bind, Res.pure_eq]
  rw [show 2 + name.length + 1 = name.length + 3 by omega]

/-- C73 (partial: see `C73_violated`). Refused: texts of no known kind; no port; a bracket that is not closed or not followed by a colon; a port above 65535 (below 2^31) or with a letter. -/
theorem C73_refused_partial (gai : Gai) (hg : GaiOk gai) (t : List Char) (buf : Buf)
    (h : (¬ "tcp:".toList <+: t ∧ ¬ "unix:".toList <+: t) ∨
      (∃ r, t = "tcp:".toList ++ r ∧ ':' ∉ r) ∨
      (∃ r, t = "tcp:[".toList ++ r ∧ ∀ a b, r ≠ a ++ [']', ':'] ++ b) ∨
      (∃ a n, t = "tcp:".toList ++ a ++ [':'] ++ Nat.toDigits 10 n ∧ a.head? ≠ some '[' ∧ ':' ∉ a ∧ 65535 < n ∧ n < 2147483648) ∨
      (∃ a n, t = "tcp:[".toList ++ a ++ [']', ':'] ++ Nat.toDigits 10 n ∧ ']' ∉ a ∧ 65535 < n ∧ n < 2147483648) ∨
      (∃ a s c, t = "tcp:".toList ++ a ++ [':'] ++ s ∧ a.head? ≠ some '[' ∧ ':' ∉ a ∧ c ∈ s ∧ c.isAlpha = true) ∨
      (∃ a s c, t = "tcp:[".toList ++ a ++ [']', ':'] ++ s ∧ ']' ∉ a ∧ c ∈ s ∧ c.isAlpha = true)) :
    parseAddress gai t buf = .ok none := by
  have htcp : "tcp:".toList = ['t', 'c', 'p', ':'] := rfl
  have htcpb : "tcp:[".toList = ['t', 'c', 'p', ':'] ++ ['['] := rfl
  have hnum : ∀ s a n, splitPort s = some (a, Nat.toDigits 10 n) → 65535 < n → n < 2147483648 → parseTcp gai s buf = .ok none := by
    intro s a n hs h1 h2
    unfold parseTcp
    rw [hs]
    simp only [atoi_digits n (by omega)]
    rw [if_pos (by omega)]
  have hlet : ∀ s a p c, splitPort s = some (a, p) → c ∈ p → c.isAlpha = true → parseTcp gai s buf = .ok none := by
    intro s a p c hs h1 h2
    unfold parseTcp
    rw [hs]
    simp only [hg.letter a p ⟨c, h1, .inl h2⟩]
    split <;> rfl
  rcases h with ⟨h1, h2⟩ | ⟨r, rfl, h⟩ | ⟨r, rfl, h⟩ | ⟨a, n, rfl, h1, h2, h3, h4⟩ | ⟨a, n, rfl, h1, h3, h4⟩ | ⟨a, s, c, rfl, h1, h2, h3, h4⟩ | ⟨a, s, c, rfl, h1, h3, h4⟩
  · unfold parseAddress
    rw [if_neg, if_neg]
    · intro e
      exact h2 ⟨t.drop 5, by rw [show "unix:".toList = ['u', 'n', 'i', 'x', ':'] from rfl, ← e, List.take_append_drop]⟩
    · intro e
      exact h1 ⟨t.drop 4, by rw [htcp, ← e, List.take_append_drop]⟩
  · rw [htcp, parse_tcp]
    unfold parseTcp
    cases hs : splitPort r with
    | none => rfl
    | some hp =>
      exfalso
      obtain ⟨a, p⟩ := hp
      by_cases hb : r.head? = some '['
      · cases r with
        | nil => cases hb
        | cons c r =>
          simp only [List.head?_cons, Option.some.injEq] at hb
          subst hb
          obtain ⟨e, _⟩ := split_bracket_inv r a p hs
          exact h (by rw [e]; simp)
      · obtain ⟨e, _⟩ := split_plain_inv r a p hb hs
        exact h (by rw [e]; simp)
  · rw [htcpb, List.append_assoc, parse_tcp]
    unfold parseTcp
    cases hs : splitPort (['['] ++ r) with
    | none => rfl
    | some hp =>
      exfalso
      obtain ⟨a, p⟩ := hp
      obtain ⟨e, _⟩ := split_bracket_inv r a p hs
      exact h a p (by rw [e]; simp)
  · rw [htcp, List.append_assoc, List.append_assoc, parse_tcp]
    exact hnum _ a n (split_plain a _ h2 h1) h3 h4
  · rw [htcpb, List.append_assoc, List.append_assoc, List.append_assoc, parse_tcp]
    refine hnum _ a n ?_ h3 h4
    rw [show ['['] ++ (a ++ ([']', ':'] ++ Nat.toDigits 10 n)) = '[' :: (a ++ ']' :: ':' :: Nat.toDigits 10 n) by simp]
    exact split_bracket a _ h1
  · rw [htcp, List.append_assoc, List.append_assoc, parse_tcp]
    exact hlet _ a s c (split_plain a _ h2 h1) h3 h4
  · rw [htcpb, List.append_assoc, List.append_assoc, List.append_assoc, parse_tcp]
    refine hlet _ a s c ?_ h3 h4
    rw [show ['['] ++ (a ++ ([']', ':'] ++ s)) = '[' :: (a ++ ']' :: ':' :: s) by simp]
    exact split_bracket a _ h1

/-- C73 (partial: not for `unix:` with a name of more than 106 characters). Every text is accepted or refused, without undefined behaviour, into a `struct sockaddr_storage` (128 bytes); its size is kept. -/
theorem C73_safe_partial (gai : Gai) (hg : GaiOk gai) (t : List Char) (ht : ∀ name, t = "unix:".toList ++ name → name.length ≤ 106) (buf : Buf) (hb : buf.length = 128) :
    parseAddress gai t buf = .ok none ∨ ∃ buf' len, parseAddress gai t buf = .ok (some (buf', len)) ∧ buf'.length = 128 ∧ len ≤ 110 := by
  unfold parseAddress
  split
  · rcases parseTcp_total gai hg (t.drop 4) buf (by omega) with h | ⟨h, p, s, _, _, h3, h4⟩
    · exact .inl h
    · right
      exact ⟨_, _, h3, by simp only [List.length_append, List.length_map, List.length_drop]; omega, by omega⟩
  · split
    · rename_i e
      have hn := ht (t.drop 5) (by rw [show "unix:".toList = ['u', 'n', 'i', 'x', ':'] from rfl, ← e, List.take_append_drop])
      right
      unfold parseUnix
      have hl : ([1, 0, 0] ++ (t.drop 5).map (fun c => UInt8.ofNat c.toNat) ++ [0] : List UInt8).length = (t.drop 5).length + 4 := by simp
      rw [if_pos (by omega), copyTo_ok _ _ (by omega), hl]
      refine ⟨_, _, rfl, ?_, by omega⟩
      have h5 : (t.drop 5).length + 4 ≤ buf.length := by omega
      rw [List.length_append, List.length_map, hl, List.length_drop (l := buf)]
      omega
    · exact .inl rfl

/-- C73 does not hold: (1) every `unix:` name of more than 106 characters is copied beyond the end of `sun_path`; (2) the port is checked with `atoi`, which takes it modulo 2^32, so port 4294967376 is accepted as port
80; (3) no port at all is accepted as port 0. -/
theorem C73_violated :
    (∀ (gai : Gai) (name : List Char) (buf : Buf), 106 < name.length → parseAddress gai ("unix:".toList ++ name) buf = .ub) ∧
    (∀ buf : Buf, 28 ≤ buf.length →
      parseAddress glibc "tcp:[::1]:4294967376".toList buf = parseAddress glibc "tcp:[::1]:80".toList buf ∧
      parseAddress glibc "tcp:[::1]:".toList buf = parseAddress glibc "tcp:[::1]:0".toList buf ∧
      parseAddress glibc "tcp:[::1]:80".toList buf ≠ .ok none ∧ parseAddress glibc "tcp:[::1]:0".toList buf ≠ .ok none) := by
  refine ⟨?_, ?_⟩
  · intro gai name buf h
    rw [show "unix:".toList = ['u', 'n', 'i', 'x', ':'] from rfl, parse_unix]
    unfold parseUnix
    rw [if_neg (by omega)]
  · intro buf hb
    have key : ∀ (s : List Char) (q : Raw16), splitPort s = some ([':', ':', '1'], (splitPort s).get!.2) → ¬ (Remote.atoi (splitPort s).get!.2 < 0 ∨ Remote.atoi (splitPort s).get!.2 > 65535) →
        glibc [':', ':', '1'] (splitPort s).get!.2 = some (.in6 q (List.replicate 15 0 ++ [1]) [0, 0, 0, 0]) →
        parseAddress glibc (['t', 'c', 'p', ':'] ++ s) buf = .ok (some ((Sock.in6 q (List.replicate 15 0 ++ [1]) [0, 0, 0, 0]).bytes.map some ++ buf.drop 28, 28)) := by
      intro s q h1 h2 h3
      rw [parse_tcp]
      unfold parseTcp
      rw [h1]
      simp only [if_neg h2, h3]
      rw [copyTo_ok _ _ (by simpa [Sock.bytes] using hb)]
      rfl
    have e1 := key "[::1]:4294967376".toList (0, 80) (by decide +kernel) (by decide +kernel) (by decide +kernel)
    have e2 := key "[::1]:80".toList (0, 80) (by decide +kernel) (by decide +kernel) (by decide +kernel)
    have e3 := key "[::1]:".toList (0, 0) (by decide +kernel) (by decide +kernel) (by decide +kernel)
    have e4 := key "[::1]:0".toList (0, 0) (by decide +kernel) (by decide +kernel) (by decide +kernel)
    refine ⟨e1.trans e2.symm, e3.trans e4.symm, ?_, ?_⟩
    · intro h; rw [show "tcp:[::1]:80".toList = ['t', 'c', 'p', ':'] ++ "[::1]:80".toList from rfl, e2] at h; cases h
    · intro h; rw [show "tcp:[::1]:0".toList = ['t', 'c', 'p', ':'] ++ "[::1]:0".toList from rfl, e4] at h; cases h

/-- The expectations on `getaddrinfo` are those of glibc. -/
theorem C73_glibc : GaiOk glibc := glibc_ok

/-- 1000::80 -/
def adr80 : Addr6 := ⟨["1000".toList], true, ["80".toList], none⟩

example : (Host.v6 adr80).WF ∧ hostPort (.v6 adr80) 80 = "[1000::80]:80".toList ∧ hostPort (.v4 ⟨10, 0, 0, 1⟩) 8080 = "10.0.0.1:8080".toList ∧
    parseAddress glibc ("tcp:".toList ++ hostPort (.v4 ⟨10, 0, 0, 1⟩) 8080) (List.replicate 28 none) =
      .ok (some ([some 2, some 0, some 31, some 144, some 10, some 0, some 0, some 1] ++ List.replicate 8 (some 0) ++ List.replicate 12 none, 16)) := by decide +kernel

example : (∃ r, "tcp:10.0.0.1".toList = "tcp:".toList ++ r ∧ ':' ∉ r) ∧ (∃ r, "tcp:[::1:80".toList = "tcp:[".toList ++ r ∧ ∀ a b, r ≠ a ++ [']', ':'] ++ b) ∧
    (∃ a n, "tcp:10.0.0.1:65536".toList = "tcp:".toList ++ a ++ [':'] ++ Nat.toDigits 10 n ∧ a.head? ≠ some '[' ∧ ':' ∉ a ∧ 65535 < n ∧ n < 2147483648) ∧
    (∃ a s c, "tcp:[::1]:http".toList = "tcp:[".toList ++ a ++ [']', ':'] ++ s ∧ ']' ∉ a ∧ c ∈ s ∧ c.isAlpha = true) := by
  refine ⟨⟨"10.0.0.1".toList, by decide, by decide⟩, ⟨"::1:80".toList, by decide, ?_⟩, ⟨"10.0.0.1".toList, 65536, by decide +kernel, by decide, by decide, by decide, by decide⟩,
    ⟨"::1".toList, "http".toList, 'h', by decide, by decide, by decide, by decide⟩⟩
  intro a b h
  have : ']' ∈ "::1:80".toList := by rw [h]; simp
  exact absurd this (by decide)

/-! ### C74 -/

theorem keyOf (s d : List UInt8) (p : UInt8) (sp dp : Raw16) : (⟨s, d, Key.zero.ud, (p, 0), sp, dp⟩ : Key) = flowKey s d p sp dp := rfl

theorem portBytes_num (r : Raw16) : portBytes (portNum r) = r := by
  obtain ⟨a, b⟩ := r
  have ha := a.toNat_lt; have hb := b.toNat_lt
  unfold portBytes portNum
  simp only
  rw [show (a.toNat * 256 + b.toNat) / 256 = a.toNat by omega, show (a.toNat * 256 + b.toNat) % 256 = b.toNat by omega]
  simp

theorem portNum_le (r : Raw16) : portNum r ≤ 65535 := by
  have ha := r.1.toNat_lt; have hb := r.2.toNat_lt
  unfold portNum
  omega

theorem fwmark_lb (gai : Gai) (hg : GaiOk gai) (c : LbConf) (hr : Reachable c.magd) (hm : c.hashMode ≤ 2147483647) (s d : Host) (hs : s.WF) (hd : d.WF) (pr : UInt8) (t : List Char) (ht : NamesProto t pr) (sp dp : Raw16)
    (proto : Nat) (data : Packet) (hk : getHashKey c.udpEncap proto data = .ok { rc := 0, key := flowKey s.bytes d.bytes pr sp dp, fragid := none }) :
    ∃ i a fw, cmdFwmark gai ⟨some c.magd, some (hostPort s (portNum sp)), some (hostPort d (portNum dp)), some t, some (Nat.toDigits 10 c.hashMode)⟩ =
        .ok ⟨hashKey (flowKey s.bytes d.bytes pr sp dp) c.hashMode, some (i, a, fw)⟩ ∧
      lbDecide c proto data = .ok (.verdict (if fw < 0 then c.notargets else fw)) := by
  obtain ⟨h1, h2⟩ := parseProto_names t pr ht
  obtain ⟨v, k1, k2⟩ := lbDecide_unfrag hr.inv hk (Int.le_refl 0) rfl
  simp only at k1
  obtain ⟨a, f, k3, _, k5, k6⟩ := lookUp_target _ _ _ k1
  refine ⟨hashKey (flowKey s.bytes d.bytes pr sp dp) c.hashMode % c.magd.M, a, f, ?_, ?_⟩
  · rw [fwmark_hosts gai hg s d hs hd _ _ (portNum_le sp) (portNum_le dp)]
    unfold hashModeOf hashOf
    simp only [Res.ok_bind, h1, if_neg h2, portBytes_num, atoi_digits _ hm, keyOf]
    rw [show ((c.hashMode : Int) % 4294967296).toNat = c.hashMode by omega, k3]
    rfl
  · rw [k2]
    by_cases h : v < 0
    · rw [if_pos h, if_pos (k6 h)]
    · rw [if_neg h, k5 (by omega), if_neg h]

/-- C74, IPv4. For every unfragmented TCP, UDP or SCTP packet (not SCTP in UDP) and every table: `nfqlb fwmark --shm --proto --src=address:port --dst=address:port`, with the hash mode of the load-balancer, prints the hash of the
packet and the fwmark that `nfqlb lb` gives it; a negative fwmark is printed exactly when the packet gets `notargets_fwmark`. -/
theorem C74_ipv4 (gai : Gai) (hg : GaiOk gai) (c : LbConf) (hr : Reachable c.magd) (hm : c.hashMode ≤ 2147483647) (x : V4) (l : L4) (hx : x.WF) (hl : l.WF) (hu : x.Unfragmented) (hpr : HasPorts x.proto)
    (hp : x.payload = l.bytes) (hue : c.udpEncap = 0 ∨ x.proto ≠ 17 ∨ portNum l.dport ≠ c.udpEncap) (t : List Char) (ht : NamesProto t x.proto) :
    ∃ i a fw, cmdFwmark gai ⟨some c.magd, some (hostPort (.v4 x.src) (portNum l.sport)), some (hostPort (.v4 x.dst) (portNum l.dport)), some t, some (Nat.toDigits 10 c.hashMode)⟩ =
        .ok ⟨hashKey (flowKey x.src.mapped x.dst.mapped x.proto l.sport l.dport) c.hashMode, some (i, a, fw)⟩ ∧
      lbDecide c 0x0800 x.bytes = .ok (.verdict (if fw < 0 then c.notargets else fw)) :=
  fwmark_lb gai hg c hr hm (.v4 x.src) (.v4 x.dst) trivial trivial x.proto t ht l.sport l.dport 0x0800 x.bytes (C14_ipv4_five_tuple _ x l hx hl hu hpr hp hue)

/-- C74, IPv6 (packets without extension headers). `s` and `d` are any texts of the addresses. -/
theorem C74_ipv6 (gai : Gai) (hg : GaiOk gai) (c : LbConf) (hr : Reachable c.magd) (hm : c.hashMode ≤ 2147483647) (x : V6) (l : L4) (hx : x.WF) (hl : l.WF) (hpr : HasPorts x.nxt)
    (hp : x.payload = l.bytes) (hue : c.udpEncap = 0 ∨ x.nxt ≠ 17 ∨ portNum l.dport ≠ c.udpEncap) (s d : Addr6) (hs : s.WF) (hd : d.WF) (hsx : s.bytes = x.src) (hdx : d.bytes = x.dst)
    (t : List Char) (ht : NamesProto t x.nxt) :
    ∃ i a fw, cmdFwmark gai ⟨some c.magd, some (hostPort (.v6 s) (portNum l.sport)), some (hostPort (.v6 d) (portNum l.dport)), some t, some (Nat.toDigits 10 c.hashMode)⟩ =
        .ok ⟨hashKey (flowKey x.src x.dst x.nxt l.sport l.dport) c.hashMode, some (i, a, fw)⟩ ∧
      lbDecide c 0x86dd x.bytes = .ok (.verdict (if fw < 0 then c.notargets else fw)) := by
  have hk := C15_ipv6_five_tuple_partial c.udpEncap x l hx hl hpr hp hue
  rw [← hsx, ← hdx] at hk ⊢
  exact fwmark_lb gai hg c hr hm (.v6 s) (.v6 d) hs hd x.nxt t ht l.sport l.dport 0x86dd x.bytes hk

/-- C74, without `--proto`: with the table of an lb-tier the printed fwmark is the member that handles the fragments between these addresses, whatever the ports given: every other member sends them there. -/
theorem C74_tier (gai : Gai) (hg : GaiOk gai) (d : Mag) (hr : Reachable d) (s r : Host) (hs : s.WF) (hrw : r.WF) (sp rp : Nat) (hsp : sp ≤ 65535) (hrp : rp ≤ 65535) (mode : List Char) :
    ∃ i a fw, cmdFwmark gai ⟨some d, some (hostPort s sp), some (hostPort r rp), none, some mode⟩ = .ok ⟨Spec.djb2 (s.bytes ++ r.bytes), some (i, a, fw)⟩ ∧
      ((activeMarks d.active ≠ ∅ ∧ fw ∈ activeMarks d.active) ∨ (activeMarks d.active = ∅ ∧ fw < 0)) ∧
      ∀ (c : LbConf) (own : Int) (proto : Nat) (data : Packet) (p : Parsed), c.tier = some (d, own) → getHashKey c.udpEncap proto data = .ok p → 0 ≤ p.rc → p.rc % 4 ≠ 0 →
        p.key.src = s.bytes → p.key.dst = r.bytes → 0 ≤ fw → own ≠ fw → lbDecide c proto data = .ok (.verdict fw) := by
  obtain ⟨v, h1, h2⟩ := target_cases hr.inv (Spec.djb2 (s.bytes ++ r.bytes))
  obtain ⟨a, f, k3, _, k5, k6⟩ := lookUp_target _ _ _ h1
  refine ⟨Spec.djb2 (s.bytes ++ r.bytes) % d.M, a, f, ?_, ?_, ?_⟩
  · rw [fwmark_hosts gai hg s r hs hrw _ _ hsp hrp]
    unfold hashModeOf hashOf
    simp only [Res.ok_bind, C10_tier, k3]
    rfl
  · rcases h2 with ⟨p1, p2, p3⟩ | ⟨p1, p2⟩
    · exact .inl ⟨p1, by rw [k5 p3]; exact p2⟩
    · exact .inr ⟨p1, k6 (by omega)⟩
  · intro c own proto data p ht hp h0 h4 hps hpd hf hown
    have hv : 0 ≤ v := by
      by_cases hv : 0 ≤ v
      · exact hv
      · have := k6 (by omega); omega
    have hfv := k5 hv
    have hh : hashKeyAddresses p.key = Spec.djb2 (s.bytes ++ r.bytes) := by rw [C10_tier, hps, hpd]
    unfold lbDecide
    rw [hp]
    simp only [Res.ok_bind, if_neg (not_lt.2 h0), h4, ne_eq, not_false_eq_true, if_true, ht, tierRedirect, hh, h1]
    rw [if_pos ⟨hv, fun e => hown (by rw [hfv, e])⟩, hfv]
    rfl

/-- C74 (partial: no IPv4 address in brackets). Whatever the options are, if they have values the command prints or refuses, without undefined behaviour. -/
theorem C74_safe_partial (gai : Gai) (hg : GaiOk gai) (shm : Option Mag) (hr : ∀ d ∈ shm, Reachable d) (s d mode : List Char) (proto : Option (List Char)) (hs : ¬ V4Brackets s) (hd : ¬ V4Brackets d) :
    cmdFwmark gai ⟨shm, some s, some d, proto, some mode⟩ = .die ∨ ∃ out, cmdFwmark gai ⟨shm, some s, some d, proto, some mode⟩ = .ok out := by
  unfold cmdFwmark
  simp only
  rcases adrParse_total gai hg s hs (List.replicate 28 none) (by simp) with h | ⟨adr, a, p, h1, h2, h3, h4⟩
  · left; rw [h]; rfl
  · simp only [h1, h3, h4, Res.ok_bind]
    rcases adrParse_total gai hg d hd adr h2 with h | ⟨adr', a', p', k1, k2, k3, k4⟩
    · left; rw [h]; rfl
    · simp only [k1, k3, k4, Res.ok_bind, hashModeOf]
      cases hh : hashOf { Key.zero with src := a, dst := a', sport := p, dport := p' } proto (Remote.atoi mode % 4294967296).toNat with
      | ok hash =>
        right
        simp only [Res.ok_bind]
        cases shm with
        | none => exact ⟨_, rfl⟩
        | some m =>
          obtain ⟨v, h1, _⟩ := target_cases (hr m rfl).inv hash
          obtain ⟨a, f, k, _⟩ := lookUp_target _ _ _ h1
          simp only [k, Res.ok_bind]
          exact ⟨_, rfl⟩
      | die => left; rfl
      | ub =>
        unfold hashOf at hh
        split at hh
        · split at hh <;> cases hh
        · cases hh
      | hang =>
        unfold hashOf at hh
        split at hh
        · split at hh <;> cases hh
        · cases hh

/-- C74, the command line: with all options as `--name=value` the command is executed with these values, in whatever shared memory the table is. -/
theorem C74_argv (gai : Gai) (shm : List Char → Option Mag) (name s d proto mode : List Char) (m : Mag) (hm : shm name = some m) :
    fwmarkArgv gai shm ["fwmark".toList, "--shm=".toList ++ name, "--proto=".toList ++ proto, "--src=".toList ++ s, "--dst=".toList ++ d, "--hash_mode=".toList ++ mode] =
      cmdFwmark gai ⟨some m, some s, some d, some proto, some mode⟩ := by
  have h : Cmd.parseOrDie Cmd.fwmarkOpts ["fwmark".toList, "--shm=".toList ++ name, "--proto=".toList ++ proto, "--src=".toList ++ s, "--dst=".toList ++ d, "--hash_mode=".toList ++ mode] =
      .ok ([Cmd.helpOpt, ⟨"shm".toList, some (some name), false⟩, ⟨"proto".toList, some (some proto), false⟩, ⟨"src".toList, some (some s), true⟩, ⟨"dst".toList, some (some d), true⟩,
        ⟨"hash_mode".toList, some (some mode), false⟩], 6) := by
    have hi := Cmd.getopt_items Cmd.fwmarkOpts ⟨by decide +kernel, by decide +kernel⟩ [.eq 1 name, .eq 2 proto, .eq 3 s, .eq 4 d, .eq 5 mode] (by
      intro it h
      simp only [List.mem_cons, List.not_mem_nil, or_false] at h
      rcases h with rfl | rfl | rfl | rfl | rfl <;> exact ⟨_, rfl, by decide +kernel⟩)
    have hi : Cmd.getopt Cmd.fwmarkOpts ["--shm=".toList ++ name, "--proto=".toList ++ proto, "--src=".toList ++ s, "--dst=".toList ++ d, "--hash_mode=".toList ++ mode] =
      ([.opt 1 (some name), .opt 2 (some proto), .opt 3 (some s), .opt 4 (some d), .opt 5 (some mode)], []) := hi
    unfold Cmd.parseOrDie Cmd.parseArgv
    dsimp only [List.tail_cons]
    rw [hi]
    rfl
  unfold fwmarkArgv
  rw [h, Res.ok_bind]
  simp only [show Cmd.valueOf [Cmd.helpOpt, ⟨"shm".toList, some (some name), false⟩, ⟨"proto".toList, some (some proto), false⟩, ⟨"src".toList, some (some s), true⟩, ⟨"dst".toList, some (some d), true⟩,
    ⟨"hash_mode".toList, some (some mode), false⟩] "shm".toList = some name from rfl, hm]
  rfl

/-- C74 (partial: no IPv4 address in brackets). Whatever the command line is, the command prints or refuses, without undefined behaviour. -/
theorem C74_argv_safe_partial (gai : Gai) (hg : GaiOk gai) (shm : List Char → Option Mag) (hr : ∀ name d, shm name = some d → Reachable d) (argv : List (List Char))
    (hb : ∀ vars n t, Cmd.parseOrDie Cmd.fwmarkOpts argv = .ok (vars, n) → Cmd.valueOf vars "src".toList = some t ∨ Cmd.valueOf vars "dst".toList = some t → ¬ V4Brackets t) :
    fwmarkArgv gai shm argv = .die ∨ ∃ out, fwmarkArgv gai shm argv = .ok out := by
  unfold fwmarkArgv
  rcases C75_commands ⟨"fwmark".toList, Cmd.fwmarkOpts, ["src".toList, "dst".toList, "hash_mode".toList]⟩ (by decide +kernel) argv with h | ⟨vars, n, h, hu⟩
  · left; rw [h]; rfl
  · rw [h, Res.ok_bind]
    obtain ⟨s, hs⟩ := hu "src".toList (by decide)
    obtain ⟨d, hd⟩ := hu "dst".toList (by decide)
    obtain ⟨mode, hm⟩ := hu "hash_mode".toList (by decide)
    have h1 := hb vars n s h (Or.inl hs)
    have h2 := hb vars n d h (Or.inr hd)
    simp only [hs, hd, hm]
    cases hn : Cmd.valueOf vars "shm".toList with
    | none => exact C74_safe_partial gai hg none (by simp) s d mode _ h1 h2
    | some name =>
      dsimp only
      cases ht : shm name with
      | some t => exact C74_safe_partial gai hg (some t) (by rintro x ⟨⟩; exact hr name t ht) s d mode _ h1 h2
      | none =>
        left
        dsimp only
        rcases C74_safe_partial gai hg none (by simp) s d mode (Cmd.valueOf vars "proto".toList) h1 h2 with e | ⟨out, e⟩ <;> rw [e] <;> rfl

/-- C74 does not hold: (1) with an IPv4 address in brackets as source the hash is computed from uninitialised memory; (2) as destination it is computed from a mixture with the source address, and differs from the hash of the
packet. -/
theorem C74_violated :
    fwmarkArgv glibc (fun _ => none) ["fwmark".toList, "--src=[10.0.0.1]:80".toList, "--dst=10.0.0.2:80".toList, "--proto=tcp".toList] = .ub ∧
    (∃ h : Nat, fwmarkArgv glibc (fun _ => none) ["fwmark".toList, "--src=[2::1]:80".toList, "--dst=[10.0.0.1]:80".toList, "--proto=tcp".toList] = .ok ⟨h, none⟩ ∧
      fwmarkArgv glibc (fun _ => none) ["fwmark".toList, "--src=[2::1]:80".toList, "--dst=10.0.0.1:80".toList, "--proto=tcp".toList] ≠ .ok ⟨h, none⟩) := by
  exact ⟨by decide +kernel, ⟨2935041007, by decide +kernel, by decide +kernel⟩⟩

/-- A table with targets 5 and 7, the packet of C09 and the command for it. -/
example : NamesProto "TCP".toList 6 ∧ tcp4.proto = 6 ∧ hostPort (.v4 tcp4.src) 1024 = "10.0.0.1:1024".toList ∧
    cmdFwmark glibc ⟨some demoConf.magd, some (hostPort (.v4 tcp4.src) 1024), some (hostPort (.v4 tcp4.dst) 80), some "TCP".toList, some "0".toList⟩ =
      .ok ⟨hashKey (flowKey a1.mapped a2.mapped 6 (4, 0) (0, 80)) 0, some (0, 0, 5)⟩ ∧
    lbDecide demoConf 0x0800 tcp4.bytes = .ok (.verdict 5) := by decide +kernel

example : ¬ V4Brackets "[1000::80]:80".toList := by
  rintro ⟨h, r, e, h1, h2⟩
  cases h with
  | nil => simp at e
  | cons a h =>
    cases h with
    | nil => simp at e
    | cons b h =>
      cases h with
      | nil => simp at e
      | cons c h =>
        cases h with
        | nil => simp at e
        | cons d h =>
          cases h with
          | nil => simp at e
          | cons f h =>
            simp only [show "[1000::80]:80".toList = ['[', '1', '0', '0', '0', ':', ':', '8', '0', ']', ':', '8', '0'] from rfl, List.cons_append, List.cons.injEq] at e
            exact h2 (by simp [← e.2.2.2.2.2.1])

/-- A command line that meets the hypotheses of `C74_argv_safe_partial`. -/
example : ∀ vars n t, Cmd.parseOrDie Cmd.fwmarkOpts ["fwmark".toList, "--src=1.2.3.4:80".toList, "--dst=1.2.3.5:81".toList] = .ok (vars, n) →
    Cmd.valueOf vars "src".toList = some t ∨ Cmd.valueOf vars "dst".toList = some t → ¬ V4Brackets t := by
  intro vars n t h ht hb
  have e : (Cmd.parseOrDie Cmd.fwmarkOpts ["fwmark".toList, "--src=1.2.3.4:80".toList, "--dst=1.2.3.5:81".toList] >>= fun p =>
      Res.ok (Cmd.valueOf p.1 "src".toList, Cmd.valueOf p.1 "dst".toList)) = .ok (some "1.2.3.4:80".toList, some "1.2.3.5:81".toList) := by decide +kernel
  rw [h, Res.ok_bind] at e
  injection e with e
  injection e with e1 e2
  obtain ⟨a, r, e3, -, -⟩ := hb
  rcases ht with ht | ht <;> simp only [e1, e2, Option.some.injEq] at ht <;> rw [← ht] at e3 <;> simp at e3

end Nfqlb.Props
