import Verif.Props.Tokenwise

/-!
C32: `Token2IndexwithHash`, `consistent_hash` and MurmurHash3.
-/

namespace Uttut

open Spec Piece Murmur

/-! ### Bijections on 32-bit words -/

theorem mul_injective (c d : BitVec 32) (h : c * d = 1#32) : Function.Injective fun x : BitVec 32 => x * c := by
  intro x y hxy
  have : x * c * d = y * c * d := by
    have := congrArg (· * d) hxy
    exact this
  rwa [BitVec.mul_assoc, BitVec.mul_assoc, h, BitVec.mul_one, BitVec.mul_one] at this

theorem shiftRight_ge (x : BitVec 32) (n : Nat) (h : 32 ≤ n) : x >>> n = 0#32 := by
  apply BitVec.eq_of_getLsbD_eq
  intro i hi
  rw [BitVec.getLsbD_ushiftRight, BitVec.getLsbD_of_ge _ _ (by omega)]
  simp

theorem xorshift16_injective : Function.Injective fun x : BitVec 32 => x ^^^ (x >>> 16) := by
  have key : ∀ x : BitVec 32, (x ^^^ (x >>> 16)) ^^^ ((x ^^^ (x >>> 16)) >>> 16) = x := by
    intro x
    rw [BitVec.ushiftRight_xor_distrib, ← BitVec.shiftRight_add, shiftRight_ge x (16 + 16) (by omega),
      BitVec.xor_zero, BitVec.xor_assoc, BitVec.xor_self, BitVec.xor_zero]
  intro x y h
  dsimp only at h
  rw [← key x, h, key y]

theorem xorshift13_injective : Function.Injective fun x : BitVec 32 => x ^^^ (x >>> 13) := by
  have key : ∀ x : BitVec 32, ((x ^^^ (x >>> 13)) ^^^ ((x ^^^ (x >>> 13)) >>> 13)) ^^^
      ((x ^^^ (x >>> 13)) >>> 26) = x := by
    intro x
    simp only [BitVec.ushiftRight_xor_distrib, ← BitVec.shiftRight_add]
    rw [shiftRight_ge x (13 + 26) (by omega), BitVec.xor_zero]
    show ((x ^^^ x >>> 13) ^^^ (x >>> 13 ^^^ x >>> 26)) ^^^ x >>> 26 = x
    rw [BitVec.xor_assoc, BitVec.xor_assoc, ← BitVec.xor_assoc (x >>> 13)]
    rw [← BitVec.xor_assoc (x >>> 13) (x >>> 13), BitVec.xor_self, BitVec.zero_xor, BitVec.xor_self,
      BitVec.xor_zero]
  intro x y h
  dsimp only at h
  rw [← key x, h, key y]

theorem rotl32_injective (r : Nat) (h0 : 0 < r) (h1 : r < 32) :
    Function.Injective fun x : BitVec 32 => rotl32 x r := by
  have key : ∀ x : BitVec 32, rotl32 (rotl32 x r) (32 - r) = x := by
    intro x
    unfold rotl32
    apply BitVec.eq_of_getLsbD_eq
    intro i hi
    simp only [BitVec.getLsbD_or, BitVec.getLsbD_shiftLeft, BitVec.getLsbD_ushiftRight]
    by_cases hc : i < 32 - r
    · have e1 : 32 - (32 - r) + i - r = i := by omega
      have e2 : decide (32 - (32 - r) + i < 32) = true := by simp; omega
      have e3 : decide (32 - (32 - r) + i < r) = false := by simp; omega
      have e4 : x.getLsbD (32 - r + (32 - (32 - r) + i)) = false := BitVec.getLsbD_of_ge _ _ (by omega)
      simp [hc, e1, e2, e3, e4]
    · have e1 : decide (i - (32 - r) < r) = true := by simp; omega
      have e2 : 32 - r + (i - (32 - r)) = i := by omega
      have e3 : decide (32 - (32 - r) + i < 32) = false := by simp; omega
      have e4 : x.getLsbD (32 - r + (32 - (32 - r) + i)) = false := BitVec.getLsbD_of_ge _ _ (by omega)
      simp [hc, hi, e1, e2, e3, e4]
  intro x y h
  dsimp only at h
  rw [← key x, h, key y]

theorem xor_left_injective (c : BitVec 32) : Function.Injective fun x : BitVec 32 => x ^^^ c := by
  intro x y h
  dsimp only at h
  have : x ^^^ c ^^^ c = y ^^^ c ^^^ c := by rw [h]
  rwa [BitVec.xor_assoc, BitVec.xor_assoc, BitVec.xor_self, BitVec.xor_zero, BitVec.xor_zero] at this

theorem add_right_injective (c : BitVec 32) : Function.Injective fun x : BitVec 32 => x + c := by
  intro x y h
  exact BitVec.add_right_inj c |>.mp (by rw [BitVec.add_comm c, BitVec.add_comm c]; exact h)

/-- C32: the finaliser is injective (hence, on a finite type, bijective). -/
theorem C32_fmix_injective : Function.Injective fmix := by
  intro x y h
  unfold fmix at h
  dsimp only at h
  exact xorshift16_injective (mul_injective 0x85ebca6b#32 0xa5cb9243#32 (by decide)
    (xorshift13_injective (mul_injective 0xc2b2ae35#32 0x7ed1b41d#32 (by decide)
      (xorshift16_injective h))))

/-- C32: the mixing of a block word is injective. -/
theorem C32_mixK_injective : Function.Injective mixK := by
  intro x y h
  unfold mixK at h
  exact mul_injective c1 0xdee13bb1#32 (by decide)
    (rotl32_injective 15 (by omega) (by omega) (mul_injective c2 0x56ed309b#32 (by decide) h))

/-- C32: one round is injective in the state, and in the block word. -/
theorem C32_mixH_injective (c : BitVec 32) :
    Function.Injective (fun h => mixH h c) ∧ Function.Injective (fun k => mixH c k) := by
  have hm : (5#32) * 0xcccccccd#32 = 1#32 := by decide
  constructor
  · intro x y h
    exact xor_left_injective c (rotl32_injective 13 (by omega) (by omega)
      (mul_injective _ _ hm (add_right_injective _ h)))
  · intro x y h
    have := rotl32_injective 13 (by omega) (by omega) (mul_injective _ _ hm (add_right_injective _ h))
    rw [BitVec.xor_comm c x, BitVec.xor_comm c y] at this
    exact xor_left_injective c this

theorem body_block (h : BitVec 32) (b0 b1 b2 b3 : UInt8) (rest : List UInt8) :
    body h (b0 :: b1 :: b2 :: b3 :: rest) = body (mixH h (mixK (block b0 b1 b2 b3))) rest :=
  blocks.eq_1 ..

theorem tail_inj (l : List UInt8) (x y : BitVec 32) (h : tail x l = tail y l) : x = y := by
  unfold tail at h
  split at h
  · exact xor_left_injective _ h
  · exact xor_left_injective _ h
  · exact xor_left_injective _ h
  · exact h

theorem body_tail (h : BitVec 32) (l : List UInt8) (hl : l.length < 4) : body h l = tail h l := by
  unfold body
  rw [blocks.eq_2]
  rintro b0 b1 b2 b3 rest rfl
  simp at hl
  omega

theorem body_inj (n : Nat) : ∀ (data : List UInt8), data.length ≤ n → ∀ (x y : BitVec 32),
    body x data = body y data → x = y := by
  induction n with
  | zero =>
    intro data hd x y h
    rw [body_tail _ _ (by omega), body_tail _ _ (by omega)] at h
    exact tail_inj _ _ _ h
  | succ n ih =>
    intro data hd x y h
    by_cases hl : data.length < 4
    · rw [body_tail _ _ hl, body_tail _ _ hl] at h
      exact tail_inj _ _ _ h
    · match data, hd, h, hl with
      | b0 :: b1 :: b2 :: b3 :: rest, hd, h, _ =>
        rw [body_block, body_block] at h
        exact (C32_mixH_injective _).1 (ih rest (by simp at hd; omega) _ _ h)
      | [], _, _, hl | [_], _, _, hl | [_, _], _, _, hl | [_, _, _], _, _, hl => simp at hl

/-- C32: for fixed data the hash is injective in the seed. -/
theorem C32_seed_injective (data : List UInt8) : Function.Injective (x86_32 data) := by
  intro x y h
  exact body_inj _ data (Nat.le_refl _) x y (xor_left_injective _ (C32_fmix_injective h))

theorem byte_inj (a b : UInt8) (h : byte a = byte b) : a = b := by
  unfold byte at h
  have := congrArg BitVec.toNat h
  have ha := a.toNat_lt
  have hb := b.toNat_lt
  simp only [BitVec.toNat_ofNat] at this
  rw [Nat.mod_eq_of_lt (by omega), Nat.mod_eq_of_lt (by omega)] at this
  exact UInt8.toNat_inj.mp this

theorem byte_getLsbD (b : UInt8) (i : Nat) (h : 8 ≤ i) : (byte b).getLsbD i = false := by
  unfold byte
  rw [BitVec.getLsbD_ofNat]
  have : b.toNat.testBit i = false := Nat.testBit_lt_two_pow
    (Nat.lt_of_lt_of_le b.toNat_lt (Nat.pow_le_pow_right (by omega) h))
  simp [this]

theorem byte_ext (a b : UInt8) (h : ∀ i < 8, (byte a).getLsbD i = (byte b).getLsbD i) : a = b := by
  apply byte_inj
  apply BitVec.eq_of_getLsbD_eq
  intro i _
  by_cases hi : i < 8
  · exact h i hi
  · rw [byte_getLsbD a i (by omega), byte_getLsbD b i (by omega)]

/-- Reading a little-endian word loses nothing. -/
theorem block_injective (a0 a1 a2 a3 b0 b1 b2 b3 : UInt8) (h : block a0 a1 a2 a3 = block b0 b1 b2 b3) :
    a0 = b0 ∧ a1 = b1 ∧ a2 = b2 ∧ a3 = b3 := by
  have hbit : ∀ (c0 c1 c2 c3 : UInt8) (i : Nat), i < 8 →
      (block c0 c1 c2 c3).getLsbD i = (byte c0).getLsbD i ∧
      (block c0 c1 c2 c3).getLsbD (8 + i) = (byte c1).getLsbD i ∧
      (block c0 c1 c2 c3).getLsbD (16 + i) = (byte c2).getLsbD i ∧
      (block c0 c1 c2 c3).getLsbD (24 + i) = (byte c3).getLsbD i := by
    intro c0 c1 c2 c3 i hi
    unfold block
    simp only [BitVec.getLsbD_or, BitVec.getLsbD_shiftLeft]
    have d : ∀ (a b : Nat), a < b → decide (a < b) = true := fun a b h => decide_eq_true h
    have nd : ∀ (a b : Nat), ¬ a < b → decide (a < b) = false := fun a b h => decide_eq_false h
    refine ⟨?_, ?_, ?_, ?_⟩
    · rw [d i 8 (by omega), d i 16 (by omega), d i 24 (by omega)]
      simp
    · rw [byte_getLsbD c0 (8 + i) (by omega), nd (8 + i) 8 (by omega), d (8 + i) 16 (by omega),
        d (8 + i) 24 (by omega), d (8 + i) 32 (by omega), show 8 + i - 8 = i by omega]
      simp
    · rw [byte_getLsbD c0 (16 + i) (by omega), byte_getLsbD c1 (16 + i - 8) (by omega),
        nd (16 + i) 16 (by omega), d (16 + i) 24 (by omega), d (16 + i) 32 (by omega),
        show 16 + i - 16 = i by omega]
      simp
    · rw [byte_getLsbD c0 (24 + i) (by omega), byte_getLsbD c1 (24 + i - 8) (by omega),
        byte_getLsbD c2 (24 + i - 16) (by omega), nd (24 + i) 24 (by omega), d (24 + i) 32 (by omega),
        show 24 + i - 24 = i by omega]
      simp
  refine ⟨byte_ext _ _ fun i hi => ?_, byte_ext _ _ fun i hi => ?_, byte_ext _ _ fun i hi => ?_,
    byte_ext _ _ fun i hi => ?_⟩
  · rw [← (hbit a0 a1 a2 a3 i hi).1, h, (hbit b0 b1 b2 b3 i hi).1]
  · rw [← (hbit a0 a1 a2 a3 i hi).2.1, h, (hbit b0 b1 b2 b3 i hi).2.1]
  · rw [← (hbit a0 a1 a2 a3 i hi).2.2.1, h, (hbit b0 b1 b2 b3 i hi).2.2.1]
  · rw [← (hbit a0 a1 a2 a3 i hi).2.2.2, h, (hbit b0 b1 b2 b3 i hi).2.2.2]

/-- The data consumed so far only matters through the state. -/
theorem body_append : (pre : List UInt8) → (k : Nat) → pre.length = 4 * k → (h : BitVec 32) →
    ∃ h', ∀ rest, body h (pre ++ rest) = body h' rest
  | [], _, _, h => ⟨h, fun _ => by rw [List.nil_append]⟩
  | b0 :: b1 :: b2 :: b3 :: pre, k, hk, h => by
    obtain ⟨h', hh⟩ := body_append pre (k - 1) (by simp at hk; omega) (mixH h (mixK (block b0 b1 b2 b3)))
    exact ⟨h', fun rest => by
      rw [List.cons_append, List.cons_append, List.cons_append, List.cons_append, body_block, hh]⟩
  | [_], k, hk, _ => by simp at hk; omega
  | [_, _], k, hk, _ => by simp at hk; omega
  | [_, _, _], k, hk, _ => by simp at hk; omega

/-- C32: two byte strings that differ only within one aligned 4-byte block never have the same hash. -/
theorem C32_block_change (pre post : List UInt8) (k : Nat) (hpre : pre.length = 4 * k)
    (a0 a1 a2 a3 b0 b1 b2 b3 : UInt8) (seed : BitVec 32)
    (h : x86_32 (pre ++ [a0, a1, a2, a3] ++ post) seed = x86_32 (pre ++ [b0, b1, b2, b3] ++ post) seed) :
    [a0, a1, a2, a3] = [b0, b1, b2, b3] := by
  unfold x86_32 at h
  have h := C32_fmix_injective h
  rw [show (pre ++ [a0, a1, a2, a3] ++ post).length = (pre ++ [b0, b1, b2, b3] ++ post).length by simp] at h
  have h := xor_left_injective _ h
  obtain ⟨s, hs⟩ := body_append pre k hpre seed
  rw [List.append_assoc, List.append_assoc, hs, hs] at h
  rw [List.cons_append, List.cons_append, List.cons_append, List.cons_append, List.nil_append, body_block,
    List.cons_append, List.cons_append, List.cons_append, List.cons_append, List.nil_append,
    body_block] at h
  have h := body_inj _ post (Nat.le_refl _) _ _ h
  have h := C32_mixK_injective ((C32_mixH_injective s).2 h)
  obtain ⟨rfl, rfl, rfl, rfl⟩ := block_injective _ _ _ _ _ _ _ _ h
  rfl

example : x86_32 (utf8 "abcd1234".toList) 0#32 ≠ x86_32 (utf8 "abcd1334".toList) 0#32 := by
  intro h
  have := C32_block_change (utf8 "abcd".toList) [] 1 (by decide) 0x31 0x32 0x33 0x34 0x31 0x33 0x33 0x34 0#32 h
  exact absurd this (by decide)

/-- Published test vectors of MurmurHash3_x86_32, and those of `test_consistent_hash.py`. -/
example : x86_32 [] 0#32 = 0#32 ∧ x86_32 [] 1#32 = 0x514E28B7#32 ∧
    x86_32 (utf8 "hello".toList) 0#32 = 0x248bfa47#32 ∧
    x86_32 (utf8 "aaa".toList) 0x9747b28c#32 = 0x283e0130#32 ∧
    consistentHash "隼興".toList 100 = 15 ∧ consistentHash "希臘優格".toList 100 = 51 := by decide

/-! ### UTF-8 -/

/-- C32: the byte string hashed is the UTF-8 encoding of the token. -/
theorem C32_utf8 (s : Str) : utf8 s = s.flatMap String.utf8EncodeChar := by
  unfold utf8
  congr 1
  funext c
  have hv : c.toNat < 0x110000 := by
    have := c.valid
    unfold Char.toNat
    rcases this with h | h <;> simp at h ⊢ <;> omega
  unfold utf8Char String.utf8EncodeChar
  dsimp only
  rw [show c.val.toNat = c.toNat from rfl]
  generalize c.toNat = n at hv
  by_cases h1 : n < 0x80
  · rw [if_pos h1, if_pos (show n ≤ 0x7f by omega)]
  · rw [if_neg h1, if_neg (show ¬ n ≤ 0x7f by omega)]
    by_cases h2 : n < 0x800
    · rw [if_pos h2, if_pos (show n ≤ 0x7ff by omega), Nat.mod_eq_of_lt (a := n / 64) (b := 0x20) (by omega)]
      simp only [Nat.add_comm]
    · rw [if_neg h2, if_neg (show ¬ n ≤ 0x7ff by omega)]
      by_cases h3 : n < 0x10000
      · rw [if_pos h3, if_pos (show n ≤ 0xffff by omega),
          Nat.mod_eq_of_lt (a := n / 4096) (b := 0x10) (by omega)]
        simp only [Nat.add_comm]
      · rw [if_neg h3, if_neg (show ¬ n ≤ 0xffff by omega),
          Nat.mod_eq_of_lt (a := n / 262144) (b := 0x08) (by omega)]
        simp only [Nat.add_comm]

example : utf8 "é中".toList = [0xC3, 0xA9, 0xE4, 0xB8, 0xAD] := by decide

/-! ### The operator -/

/-- C32: `consistent_hash` is below its modulus, and 0 for modulus 0. -/
theorem C32_hash_range (s : Str) (n : Nat) :
    (0 < n → consistentHash s n < n) ∧ consistentHash s 0 = 0 ∧
    consistentHash s n ≤ (x86_32 (utf8 s) 0#32).toNat := by
  unfold consistentHash
  refine ⟨fun h => ?_, rfl, ?_⟩
  · rw [if_neg (by omega)]; exact Nat.mod_lt _ h
  · split
    · exact Nat.zero_le _
    · exact Nat.mod_le _ _

example : consistentHash "隼興".toList 7 < 7 := (C32_hash_range _ _).1 (by decide)

/-- C32: the index of a token: its own for known tokens, otherwise the hash modulo the vocabulary size.
The output has the length of the input, all indices are in `[0, n)`, labels pass through. -/
theorem C32_transform (σ : SetOrder) (d : List (Str × Int)) (hkeys : (d.map Prod.fst).Nodup)
    (hinit : Token2IndexwithHash.init d = .ok ()) (l : List Str) :
    ∃ (idx : Str → Int) (a : Aligner),
      Token2IndexwithHash.transform σ d (l.map Tok.str) = .ok (l.map (fun s => Tok.int (idx s)), a) ∧
      (∀ s i, (s, i) ∈ d → idx s = i) ∧
      (∀ s, s ∉ d.map Prod.fst →
        idx s = ((x86_32 (s.flatMap String.utf8EncodeChar) 0#32).toNat % d.length : Nat)) ∧
      (∀ s, 0 ≤ idx s ∧ idx s < d.length) ∧
      PassThrough a l.length ∧ Aligned a l.length l.length anyLabels := by
  have hc : Continuous d := (C31_continuity d).mp hinit
  have hpos : 0 < d.length := List.length_pos_iff.mpr hc.1
  let idx : Str → Int := fun s => (dictGet d s).getD (consistentHash s d.length : Nat)
  have hnv : ∀ t ∈ l.map Tok.str, Token2IndexwithHash.newValue d t =
      .ok (match t with | .str s => some [Tok.int (idx s)] | .int _ => none) := by
    intro t ht
    obtain ⟨s, _, rfl⟩ := List.mem_map.mp ht
    simp only [Token2IndexwithHash.newValue, idx]
    cases dictGet d s <;> rfl
  have ht := tokenwiseTransform_congr σ (Token2IndexwithHash.newValue d) _ (l.map Tok.str) hnv
    (fun _ n => Aligner.null (l.map Tok.str).length n)
  have hout : ((l.map Tok.str).flatMap fun t => (match t with
      | .str s => some [Tok.int (idx s)] | .int _ => none).getD [t]) = l.map fun s => Tok.int (idx s) := by
    rw [List.flatMap_map, ← List.flatMap_singleton' (List.map _ l), List.flatMap_map]
    rfl
  rw [hout] at ht
  simp only [List.length_map] at ht
  refine ⟨idx, Aligner.null l.length l.length, ?_, ?_, ?_, ?_, null_passThrough _, null_aligned _⟩
  · unfold Token2IndexwithHash.transform
    simp only [List.length_map]
    exact ht
  · intro s i h
    simp only [idx, dictGet_of_mem d s i hkeys h, Option.getD_some]
  · intro s h
    simp only [idx, (dictGet_none d s).mpr h, Option.getD_none, consistentHash]
    rw [if_neg (by omega), C32_utf8]
  · intro s
    cases hg : dictGet d s with
    | some i =>
      simp only [idx, hg, Option.getD_some]
      exact (hc.2.2 i).mp (List.mem_map_of_mem (f := Prod.snd) (dictGet_mem d s i hg))
    | none =>
      simp only [idx, hg, Option.getD_none]
      have := (C32_hash_range s d.length).1 hpos
      omega

example : Token2IndexwithHash.init [("a".toList, 0), ("b".toList, 1)] = .ok () ∧
    (Token2IndexwithHash.transform SetOrder.id [("a".toList, 0), ("b".toList, 1)]
      ([ "b".toList, "hello".toList].map Tok.str)).map Prod.fst = .ok [.int 1, .int 1] := by decide

/-- C32: a non-string token raises TypeError. -/
theorem C32_non_string (σ : SetOrder) (d : List (Str × Int)) (l : List Tok) (i : Int)
    (h : Tok.int i ∈ l) : Token2IndexwithHash.transform σ d l = .error .typeError := by
  unfold Token2IndexwithHash.transform tokenwiseTransform
  rw [enumAdd_error _ l .typeError ⟨_, h, rfl⟩]
  · rfl
  · intro t _ e he
    cases t with
    | int j => simp only [Token2IndexwithHash.newValue] at he; injection he with he; exact he.symm
    | str s => simp only [Token2IndexwithHash.newValue] at he; cases hg : dictGet d s <;> rw [hg] at he <;> cases he

example : Token2IndexwithHash.transform SetOrder.id [("a".toList, 0)] [.int 3] = .error .typeError :=
  C32_non_string _ _ _ 3 (by simp)

end Uttut
