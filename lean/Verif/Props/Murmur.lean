import Verif.Spec.Murmur
import Verif.Props.Hash

/-! C32: the hash is MurmurHash3_x86_32. -/

namespace Uttut

open Spec Murmur

theorem rotl32_toNat (x : BitVec 32) (r : Nat) (h1 : r ≤ 32) : (rotl32 x r).toNat = Murmur3.rotate r x.toNat := by
  unfold rotl32 Murmur3.rotate
  have hx := x.isLt
  have e : x.toNat * 2 ^ r % 2 ^ 32 = 2 ^ r * (x.toNat % 2 ^ (32 - r)) := by
    rw [show (2 : Nat) ^ 32 = 2 ^ r * 2 ^ (32 - r) by rw [← Nat.pow_add]; congr 1; omega, Nat.mul_comm x.toNat,
      Nat.mul_mod_mul_left]
  have hlt : x.toNat / 2 ^ (32 - r) < 2 ^ r := by
    apply Nat.div_lt_of_lt_mul
    rw [← Nat.pow_add, show 32 - r + r = 32 by omega]
    exact hx
  rw [e, Nat.two_pow_add_eq_or_of_lt hlt, BitVec.toNat_or, BitVec.toNat_shiftLeft, BitVec.toNat_ushiftRight,
    Nat.shiftLeft_eq, Nat.shiftRight_eq_div_pow, e]

theorem byte_toNat (b : UInt8) : (byte b).toNat = b.toNat := by
  unfold byte
  have := b.toNat_lt
  rw [BitVec.toNat_ofNat]
  omega

theorem byte_shift_toNat (b : UInt8) (k : Nat) (hk : k ≤ 24) : (byte b <<< k).toNat = 2 ^ k * b.toNat := by
  have h := b.toNat_lt
  rw [BitVec.toNat_shiftLeft, byte_toNat, Nat.shiftLeft_eq, Nat.mul_comm, Nat.mod_eq_of_lt]
  calc 2 ^ k * b.toNat < 2 ^ k * 2 ^ 8 := (Nat.mul_lt_mul_left (Nat.two_pow_pos k)).mpr h
    _ = 2 ^ (k + 8) := by rw [Nat.pow_add]
    _ ≤ 2 ^ 32 := Nat.pow_le_pow_right (by omega) (by omega)

theorem block_toNat (b0 b1 b2 b3 : UInt8) :
    (block b0 b1 b2 b3).toNat = Murmur3.littleEndian [b0.toNat, b1.toNat, b2.toNat, b3.toNat] := by
  have h0 := b0.toNat_lt
  have h1 := b1.toNat_lt
  have h2 := b2.toNat_lt
  unfold block
  rw [BitVec.toNat_or, BitVec.toNat_or, BitVec.toNat_or, byte_toNat, byte_shift_toNat _ _ (by omega),
    byte_shift_toNat _ _ (by omega), byte_shift_toNat _ _ (by omega), Nat.or_comm b0.toNat,
    ← Nat.two_pow_add_eq_or_of_lt h0, Nat.or_comm _ (2 ^ 16 * b2.toNat),
    ← Nat.two_pow_add_eq_or_of_lt (i := 16) (by omega), Nat.or_comm _ (2 ^ 24 * b3.toNat),
    ← Nat.two_pow_add_eq_or_of_lt (i := 24) (by omega)]
  simp only [Murmur3.littleEndian]
  omega

theorem xor_eq_or {a b : BitVec 32} (h : ∀ i, a.getLsbD i = true → b.getLsbD i = false) : a ^^^ b = a ||| b := by
  apply BitVec.eq_of_getLsbD_eq
  intro i _
  rw [BitVec.getLsbD_xor, BitVec.getLsbD_or]
  have := h i
  cases ha : a.getLsbD i <;> cases hb : b.getLsbD i <;> simp_all

theorem tail_word2 (b0 b1 : UInt8) : 0#32 ^^^ (byte b1 <<< 8) ^^^ byte b0 = block b0 b1 0 0 := by
  rw [BitVec.zero_xor, xor_eq_or]
  · show _ = byte b0 ||| (byte b1 <<< 8) ||| 0#32 ||| 0#32
    rw [BitVec.or_zero, BitVec.or_zero, BitVec.or_comm]
  · intro i hi
    by_cases h : 8 ≤ i
    · exact byte_getLsbD b0 i h
    · rw [BitVec.getLsbD_shiftLeft] at hi
      simp [Nat.lt_of_not_le h] at hi

theorem tail_word3 (b0 b1 b2 : UInt8) :
    0#32 ^^^ (byte b2 <<< 16) ^^^ (byte b1 <<< 8) ^^^ byte b0 = block b0 b1 b2 0 := by
  have h1 : byte b2 <<< 16 ^^^ byte b1 <<< 8 = byte b2 <<< 16 ||| byte b1 <<< 8 := by
    apply xor_eq_or
    intro i hi
    by_cases h : 16 ≤ i
    · rw [BitVec.getLsbD_shiftLeft, byte_getLsbD b1 (i - 8) (by omega)]
      simp
    · rw [BitVec.getLsbD_shiftLeft] at hi
      simp [Nat.lt_of_not_le h] at hi
  rw [BitVec.zero_xor, h1, xor_eq_or]
  · show _ = byte b0 ||| (byte b1 <<< 8) ||| (byte b2 <<< 16) ||| 0#32
    rw [BitVec.or_zero, BitVec.or_comm, BitVec.or_comm (byte b2 <<< 16), BitVec.or_assoc]
  · intro i hi
    by_cases h : 8 ≤ i
    · exact byte_getLsbD b0 i h
    · rw [BitVec.getLsbD_or, BitVec.getLsbD_shiftLeft, BitVec.getLsbD_shiftLeft] at hi
      simp [Nat.lt_of_not_le h, show i < 16 by omega] at hi

theorem mixK_toNat (k : BitVec 32) : (mixK k).toNat = Murmur3.scramble k.toNat := by
  unfold mixK Murmur3.scramble
  rw [BitVec.toNat_mul, rotl32_toNat _ _ (by omega), BitVec.toNat_mul]
  rfl

theorem mixH_toNat (h k : BitVec 32) :
    (mixH h (mixK k)).toNat = Murmur3.round h.toNat k.toNat := by
  unfold mixH Murmur3.round
  rw [BitVec.toNat_add, BitVec.toNat_mul, rotl32_toNat _ _ (by omega), BitVec.toNat_xor, mixK_toNat]
  show (_ * 5 % 2 ^ 32 + 3864292196) % 2 ^ 32 = _
  rw [Nat.mod_add_mod]

theorem xorshift_mul_toNat (h c : BitVec 32) (n k : Nat) (hc : c.toNat = k) :
    ((h ^^^ (h >>> n)) * c).toNat = (h.toNat ^^^ h.toNat / 2 ^ n) * k % 2 ^ 32 := by
  subst hc
  rw [BitVec.toNat_mul, BitVec.toNat_xor, BitVec.toNat_ushiftRight, Nat.shiftRight_eq_div_pow]

theorem fmix_toNat (h : BitVec 32) : (fmix h).toNat = Murmur3.avalanche h.toNat := by
  unfold fmix Murmur3.avalanche
  dsimp only
  rw [BitVec.toNat_xor, BitVec.toNat_ushiftRight, Nat.shiftRight_eq_div_pow,
    xorshift_mul_toNat _ 0xc2b2ae35#32 13 0xc2b2ae35 (BitVec.toNat_ofNat ..),
    xorshift_mul_toNat _ 0x85ebca6b#32 16 0x85ebca6b (BitVec.toNat_ofNat ..)]

theorem tail_toNat (h : BitVec 32) (l : List UInt8) (hl : l.length < 4) :
    (tail h l).toNat = h.toNat ^^^ Murmur3.scramble (Murmur3.littleEndian (l.map UInt8.toNat)) := by
  match l, hl with
  | [], _ =>
    show h.toNat = h.toNat ^^^ 0
    rw [Nat.xor_zero]
  | [b0], _ =>
    show (h ^^^ mixK (0#32 ^^^ byte b0)).toNat = _
    rw [BitVec.zero_xor, BitVec.toNat_xor, mixK_toNat, byte_toNat]
    rfl
  | [b0, b1], _ =>
    show (h ^^^ mixK (0#32 ^^^ (byte b1 <<< 8) ^^^ byte b0)).toNat = _
    rw [tail_word2, BitVec.toNat_xor, mixK_toNat, block_toNat]
    rfl
  | [b0, b1, b2], _ =>
    show (h ^^^ mixK (0#32 ^^^ (byte b2 <<< 16) ^^^ (byte b1 <<< 8) ^^^ byte b0)).toNat = _
    rw [tail_word3, BitVec.toNat_xor, mixK_toNat, block_toNat]
    rfl

theorem body_short (h : BitVec 32) (l : List UInt8) (hl : l.length < 4) :
    (body h l).toNat =
      (List.range (l.length / 4)).foldl (fun h i => Murmur3.round h
        (Murmur3.littleEndian (((l.map UInt8.toNat).drop (4 * i)).take 4))) h.toNat ^^^
      Murmur3.scramble (Murmur3.littleEndian ((l.map UInt8.toNat).drop (4 * (l.length / 4)))) := by
  rw [body_tail _ _ hl, tail_toNat _ _ hl, Nat.div_eq_of_lt hl, List.range_zero, List.foldl_nil, Nat.mul_zero,
    List.drop_zero]

theorem body_toNat (h : BitVec 32) (data : List UInt8) :
    (body h data).toNat =
      (List.range (data.length / 4)).foldl (fun h i => Murmur3.round h
        (Murmur3.littleEndian (((data.map UInt8.toNat).drop (4 * i)).take 4))) h.toNat ^^^
      Murmur3.scramble (Murmur3.littleEndian ((data.map UInt8.toNat).drop (4 * (data.length / 4)))) := by
  match data with
  | b0 :: b1 :: b2 :: b3 :: rest =>
    rw [body_block, body_toNat (mixH h (mixK (block b0 b1 b2 b3))) rest]
    have hl : (b0 :: b1 :: b2 :: b3 :: rest).length / 4 = rest.length / 4 + 1 := by
      simp only [List.length_cons]
      omega
    rw [hl, List.range_succ_eq_map, List.foldl_cons, List.foldl_map, mixH_toNat, block_toNat]
    have hd : ∀ i, ((b0 :: b1 :: b2 :: b3 :: rest).map UInt8.toNat).drop (4 * (i + 1)) =
        (rest.map UInt8.toNat).drop (4 * i) := by
      intro i
      rw [show 4 * (i + 1) = 4 * i + 4 by omega]
      rfl
    simp only [Nat.succ_eq_add_one, hd]
    rfl
  | [] => exact body_short h _ (by simp)
  | [b0] => exact body_short h _ (by simp)
  | [b0, b1] => exact body_short h _ (by simp)
  | [b0, b1, b2] => exact body_short h _ (by simp)

/-- C32: the hash of the code is MurmurHash3_x86_32, for all byte strings and seeds. -/
theorem C32_murmur3 (data : List UInt8) (seed : BitVec 32) :
    (x86_32 data seed).toNat = Murmur3.hash seed.toNat (data.map UInt8.toNat) := by
  unfold x86_32 Murmur3.hash
  rw [fmix_toNat, BitVec.toNat_xor, body_toNat, BitVec.toNat_ofNat]
  simp only [List.length_map]

/-- C32: the index of an unknown token, in terms of the published hash and UTF-8. -/
theorem C32_consistent_hash (s : Str) (n : Nat) (hn : 0 < n) :
    consistentHash s n = Murmur3.hash 0 ((utf8 s).map UInt8.toNat) % n := by
  unfold consistentHash
  rw [if_neg (by omega), C32_murmur3]
  rfl

example : Murmur3.hash 0 [104, 101, 108, 108, 111] = 0x248bfa47 ∧
    consistentHash "隼興".toList 100 = Murmur3.hash 0 [0xE9, 0x9A, 0xBC, 0xE8, 0x88, 0x88] % 100 := by decide

end Uttut
