import Verif.Model.NlMsg
import Verif.Spec.NlMsg

/-! The netlink messages are read as they are meant. -/

set_option autoImplicit false
set_option linter.unusedSimpArgs false

namespace Nfqlb.Nl

open Nfqlb Nfqlb.Spec.Nl

theorem ofNat_toNat (x : Nat) : (UInt8.ofNat x).toNat = x % 256 := by simp

theorem big_be16 (x : Nat) : big (be16 x) = x % 65536 := by
  simp only [big, be16, List.reverse_cons, List.reverse_nil, List.nil_append, List.cons_append, little, ofNat_toNat]
  omega

theorem big_be32 (x : Nat) : big (be32 x) = x % 4294967296 := by
  simp only [big, be32, List.reverse_cons, List.reverse_nil, List.nil_append, List.cons_append, little, ofNat_toNat]
  omega

theorem little_le16 {x : Nat} (h : x < 65536) : little (le16 x) = x := by
  simp only [le16, little, ofNat_toNat]
  omega

theorem little_le32 {x : Nat} (h : x < 4294967296) : little (le32 x) = x := by
  simp only [le32, little, ofNat_toNat]
  omega

/-- The bytes of an attribute. -/
def enc (a : Nat × List UInt8) : List UInt8 := le16 (4 + a.2.length) ++ le16 a.1 ++ a.2 ++ List.replicate ((4 - a.2.length % 4) % 4) 0

theorem enc_length (a : Nat × List UInt8) : (enc a).length = (4 + a.2.length + 3) / 4 * 4 := by
  simp only [enc, le16, List.length_append, List.length_cons, List.length_nil, List.length_replicate]
  omega

/-- Attributes are read as they were written. -/
theorem attrs_enc : ∀ (as : List (Nat × List UInt8)) (fuel : Nat), as.length ≤ fuel → (∀ a ∈ as, a.1 < 65536 ∧ a.2.length < 65532) → attrs fuel (as.flatMap enc) = some as
  | [], fuel, _, _ => by cases fuel <;> rfl
  | a :: as, 0, h, _ => by simp at h
  | a :: as, fuel + 1, h, ha => by
    obtain ⟨h1, h2⟩ := ha a (.head _)
    have ih := attrs_enc as fuel (by simpa using h) (fun b hb => ha b (.tail _ hb))
    rw [List.flatMap_cons]
    have hlen := enc_length a
    obtain ⟨x, xs, hx⟩ : ∃ x xs, enc a ++ as.flatMap enc = x :: xs := ⟨_, _, rfl⟩
    have e : attrs (fuel + 1) (enc a ++ as.flatMap enc) =
        let bs := enc a ++ as.flatMap enc
        let len := little (bs.take 2)
        let size := (len + 3) / 4 * 4
        if bs.length < 4 ∨ len < 4 ∨ bs.length < size then none
        else (attrs fuel (bs.drop size)).map ((little ((bs.drop 2).take 2), (bs.drop 4).take (len - 4)) :: ·) := by
      rw [hx]; rfl
    rw [e]
    have t1 : (enc a ++ as.flatMap enc).take 2 = le16 (4 + a.2.length) := rfl
    have t2 : ((enc a ++ as.flatMap enc).drop 2).take 2 = le16 a.1 := rfl
    have t3 : (enc a ++ as.flatMap enc).drop 4 = a.2 ++ (List.replicate ((4 - a.2.length % 4) % 4) 0 ++ as.flatMap enc) := by
      show (a.2 ++ List.replicate ((4 - a.2.length % 4) % 4) 0) ++ as.flatMap enc = _
      rw [List.append_assoc]
    dsimp only
    rw [t1, t2, t3, little_le16 (by omega), little_le16 h1, ← hlen]
    rw [if_neg (by rw [List.length_append]; omega), List.drop_left, ih]
    rw [show 4 + a.2.length - 4 = a.2.length by omega, List.take_left]
    rfl

/-- A message is read as it was built. -/
theorem read_bytes (room ty q : Nat) (as : List (Nat × List UInt8)) (hty : ty < 256) (ha : ∀ a ∈ as, a.1 < 65536 ∧ a.2.length < 65532) (hl : (as.flatMap enc).length < 65536) :
    read (bytes ⟨room, 3 * 256 + ty, [0, 0] ++ be16 q ++ as.flatMap enc⟩) = some ⟨ty, q % 65536, as⟩ := by
  have hb : ([0, 0] ++ be16 q ++ as.flatMap enc).length = 4 + (as.flatMap enc).length := by
    rw [List.length_append]; rfl
  have hn : (bytes ⟨room, 3 * 256 + ty, [0, 0] ++ be16 q ++ as.flatMap enc⟩).length = 20 + (as.flatMap enc).length := by
    unfold bytes
    dsimp only
    rw [List.length_append, hb]
    show 16 + _ = _
    omega
  have hfuel : as.length ≤ 20 + (as.flatMap enc).length := by
    clear hn hb hl ha
    induction as with
    | nil => simp
    | cons a as ih =>
      rw [List.flatMap_cons, List.length_append, List.length_cons]
      have := enc_length a
      omega
  have t1 : (bytes ⟨room, 3 * 256 + ty, [0, 0] ++ be16 q ++ as.flatMap enc⟩).take 4 = le32 (16 + ([0, 0] ++ be16 q ++ as.flatMap enc).length) := rfl
  have t2 : ((bytes ⟨room, 3 * 256 + ty, [0, 0] ++ be16 q ++ as.flatMap enc⟩).drop 6).take 2 = le16 1 := rfl
  have t3 : ((bytes ⟨room, 3 * 256 + ty, [0, 0] ++ be16 q ++ as.flatMap enc⟩).drop 5).take 1 = [UInt8.ofNat ((3 * 256 + ty) / 256)] := rfl
  have t4 : ((bytes ⟨room, 3 * 256 + ty, [0, 0] ++ be16 q ++ as.flatMap enc⟩).drop 4).take 1 = [UInt8.ofNat (3 * 256 + ty)] := rfl
  have t5 : ((bytes ⟨room, 3 * 256 + ty, [0, 0] ++ be16 q ++ as.flatMap enc⟩).drop 18).take 2 = be16 q := rfl
  have t6 : (bytes ⟨room, 3 * 256 + ty, [0, 0] ++ be16 q ++ as.flatMap enc⟩).drop 20 = as.flatMap enc := rfl
  unfold Spec.Nl.read
  rw [t1, t2, t3, t4, t5, t6, hn, hb, attrs_enc as _ hfuel ha, little_le32 (by omega), big_be16]
  rw [if_neg (by
    simp only [little, ofNat_toNat, le16]
    omega)]
  simp only [little, ofNat_toNat, Option.map_some]
  rw [show (3 * 256 + ty) % 256 + 256 * 0 = ty by omega]

/-- An attribute that fits. -/
theorem attrPut_ok {b : Build} {t : Nat} {d : List UInt8} (h : 16 + b.body.length + (4 + d.length + 3) / 4 * 4 ≤ b.room) :
    attrPut b t d = .ok { b with body := b.body ++ enc (t, d) } := by
  unfold attrPut
  have := enc_length (t, d)
  exact if_neg (by
    show ¬ b.room < 16 + b.body.length + (enc (t, d)).length
    dsimp only at this
    omega)

theorem hdrPut_ok {room : Nat} (h : 20 ≤ room) (ty q : Nat) : hdrPut room ty q = .ok ⟨room, 3 * 256 + ty, [0, 0] ++ be16 q⟩ := by
  unfold hdrPut
  rw [if_neg (by omega)]

theorem len4 (q : Nat) : ([0, 0] ++ be16 q : List UInt8).length = 4 := rfl
theorem len32 (q : Nat) : (be32 q).length = 4 := rfl

theorem cmd_ok {room : Nat} (h : 28 ≤ room) (q c : Nat) : ∃ bs, cmdMsg room q c = .ok bs ∧ bs.length = 28 ∧ read bs = some ⟨2, q % 65536, [(1, [UInt8.ofNat c, 0] ++ be16 2)]⟩ := by
  refine ⟨bytes ⟨room, 3 * 256 + 2, [0, 0] ++ be16 q ++ [(1, [UInt8.ofNat c, 0] ++ be16 2)].flatMap enc⟩, ?_, by simp [bytes, enc, be16, be32, le16, le32], read_bytes room 2 q _ (by omega) ?_ ?_⟩
  · unfold cmdMsg
    rw [hdrPut_ok (by omega)]
    simp only [Res.ok_bind]
    rw [attrPut_ok (by show 16 + 4 + _ ≤ room; show 16 + 4 + (4 + 4 + 3) / 4 * 4 ≤ room; omega)]
    simp only [Res.ok_bind, Res.pure_eq, List.flatMap_cons, List.flatMap_nil, List.append_nil]
  · intro a ha; cases ha with
    | head => exact ⟨by show _ < 65536; simp, by show 4 < 65532; omega⟩
    | tail _ h => cases h
  · simp [enc, be16, be32, le16]

theorem params_ok {room : Nat} (h : 48 ≤ room) (q mtu : Nat) : ∃ bs, paramsMsg room q mtu = .ok bs ∧ bs.length = 48 ∧
    read bs = some ⟨2, q % 65536, [(2, be32 mtu ++ [2]), (5, be32 4), (4, be32 4)]⟩ := by
  refine ⟨bytes ⟨room, 3 * 256 + 2, [0, 0] ++ be16 q ++ [(2, be32 mtu ++ [2]), (5, be32 4), (4, be32 4)].flatMap enc⟩, ?_, by simp [bytes, enc, be16, be32, le16, le32], read_bytes room 2 q _ (by omega) ?_ ?_⟩
  · unfold paramsMsg
    rw [hdrPut_ok (by omega)]
    simp only [Res.ok_bind]
    rw [attrPut_ok (by show 16 + 4 + (4 + 5 + 3) / 4 * 4 ≤ room; omega)]
    simp only [Res.ok_bind]
    rw [attrPut_ok (by simp [enc, be16, be32, le16]; omega)]
    simp only [Res.ok_bind]
    rw [attrPut_ok (by simp [enc, be16, be32, le16]; omega)]
    simp only [Res.ok_bind, Res.pure_eq, List.flatMap_cons, List.flatMap_nil, List.append_nil, List.append_assoc]
  · intro a ha
    simp only [List.mem_cons, List.not_mem_nil, or_false] at ha
    rcases ha with rfl | rfl | rfl
    · exact ⟨by show _ < 65536; simp, by show 5 < 65532; omega⟩
    · exact ⟨by show _ < 65536; simp, by show 4 < 65532; omega⟩
    · exact ⟨by show _ < 65536; simp, by show 4 < 65532; omega⟩
  · simp [enc, be16, be32, le16]

theorem maxlen_ok {room : Nat} (h : 28 ≤ room) (q n : Nat) : ∃ bs, maxlenMsg room q n = .ok bs ∧ bs.length = 28 ∧ read bs = some ⟨2, q % 65536, [(3, be32 n)]⟩ := by
  refine ⟨bytes ⟨room, 3 * 256 + 2, [0, 0] ++ be16 q ++ [(3, be32 n)].flatMap enc⟩, ?_, by simp [bytes, enc, be16, be32, le16, le32], read_bytes room 2 q _ (by omega) ?_ ?_⟩
  · unfold maxlenMsg
    rw [hdrPut_ok (by omega)]
    simp only [Res.ok_bind]
    rw [attrPut_ok (by show 16 + 4 + (4 + 4 + 3) / 4 * 4 ≤ room; omega)]
    simp only [Res.ok_bind, Res.pure_eq, List.flatMap_cons, List.flatMap_nil, List.append_nil]
  · intro a ha; cases ha with
    | head => exact ⟨by show _ < 65536; simp, by show 4 < 65532; omega⟩
    | tail _ h => cases h
  · simp [enc, be16, be32, le16]

theorem verdict_ok {page : Nat} (h : 40 ≤ page) (v : Nfq.Verdict) : ∃ bs, verdictMsg page v = .ok bs ∧ bs.length = 40 ∧
    verdict bs = some (v.queue % 65536, v.id % 4294967296, v.mark % 4294967296, v.verdict % 4294967296) := by
  have hr : 40 ≤ bufSize page := by unfold bufSize; split <;> omega
  unfold verdictMsg
  generalize bufSize page = room at *
  have e : read (bytes ⟨room, 3 * 256 + 1, [0, 0] ++ be16 v.queue ++ [(2, be32 v.verdict ++ be32 v.id), (3, be32 v.mark)].flatMap enc⟩) =
      some ⟨1, v.queue % 65536, [(2, be32 v.verdict ++ be32 v.id), (3, be32 v.mark)]⟩ := by
    refine read_bytes room 1 v.queue _ (by omega) ?_ ?_
    · intro a ha
      simp only [List.mem_cons, List.not_mem_nil, or_false] at ha
      rcases ha with rfl | rfl
      · exact ⟨by show _ < 65536; simp, by show 8 < 65532; omega⟩
      · exact ⟨by show _ < 65536; simp, by show 4 < 65532; omega⟩
    · simp [enc, be16, be32, le16]
  refine ⟨bytes ⟨room, 3 * 256 + 1, [0, 0] ++ be16 v.queue ++ [(2, be32 v.verdict ++ be32 v.id), (3, be32 v.mark)].flatMap enc⟩, ?_, by simp [bytes, enc, be16, be32, le16, le32], by
    unfold verdict
    rw [e]
    show some (v.queue % 65536, big (be32 v.id), big (be32 v.mark), big (be32 v.verdict)) = _
    rw [big_be32, big_be32, big_be32]⟩
  rw [hdrPut_ok (by omega)]
  simp only [Res.ok_bind]
  rw [attrPut_ok (by show 16 + 4 + (4 + 8 + 3) / 4 * 4 ≤ room; omega)]
  simp only [Res.ok_bind]
  rw [attrPut_ok (by simp [enc, be16, be32, le16]; omega)]
  simp only [Res.ok_bind, Res.pure_eq, List.flatMap_cons, List.flatMap_nil, List.append_nil, List.append_assoc]

end Nfqlb.Nl
