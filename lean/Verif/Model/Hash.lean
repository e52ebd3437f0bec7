import Verif.Model.Py

/-
Model of `uttut/pipeline/ops/utils/consistent_hash.pyx` and of `MurmurHash3_x86_32` in
`uttut/pipeline/ops/utils/MurmurHash3.cpp`.
-/

namespace Uttut

namespace Murmur

/-- `ROTL32` (`MurmurHash3.cpp:38-46`, `(x << r) | (x >> (32 - r))`). -/
def rotl32 (x : BitVec 32) (r : Nat) : BitVec 32 := (x <<< r) ||| (x >>> (32 - r))

/-- `MurmurHash3.cpp:79-88` `fmix(uint32_t)`. -/
def fmix (h : BitVec 32) : BitVec 32 :=
  let h := h ^^^ (h >>> 16)
  let h := h * 0x85ebca6b#32
  let h := h ^^^ (h >>> 13)
  let h := h * 0xc2b2ae35#32
  h ^^^ (h >>> 16)

/-- `MurmurHash3.cpp:113` `c1`. -/
def c1 : BitVec 32 := 0xcc9e2d51#32
/-- `MurmurHash3.cpp:114` `c2`. -/
def c2 : BitVec 32 := 0x1b873593#32

/-- `MurmurHash3.cpp:125-127` (and L147): `k1 *= c1; k1 = ROTL32(k1,15); k1 *= c2`. -/
def mixK (k : BitVec 32) : BitVec 32 := rotl32 (k * c1) 15 * c2

/-- `MurmurHash3.cpp:129-131`: `h1 ^= k1; h1 = ROTL32(h1,13); h1 = h1*5+0xe6546b64`. -/
def mixH (h k : BitVec 32) : BitVec 32 := rotl32 (h ^^^ k) 13 * 5#32 + 0xe6546b64#32

/-- A byte as a 32-bit word. -/
def byte (b : UInt8) : BitVec 32 := BitVec.ofNat 32 b.toNat

/-- `getblock` (`MurmurHash3.cpp:66-69`) on a little-endian machine. -/
def block (b0 b1 b2 b3 : UInt8) : BitVec 32 :=
  byte b0 ||| (byte b1 <<< 8) ||| (byte b2 <<< 16) ||| (byte b3 <<< 24)

/-- `MurmurHash3.cpp:140-148`: the tail `switch`, with its fall-through cases. -/
def tail (h : BitVec 32) : List UInt8 → BitVec 32
  | [b0] => h ^^^ mixK (0#32 ^^^ byte b0)
  | [b0, b1] => h ^^^ mixK (0#32 ^^^ (byte b1 <<< 8) ^^^ byte b0)
  | [b0, b1, b2] => h ^^^ mixK (0#32 ^^^ (byte b2 <<< 16) ^^^ (byte b1 <<< 8) ^^^ byte b0)
  | _ => h

/-- The shape of `MurmurHash3.cpp:121-148`: a loop over whole 4-byte blocks, then the remaining bytes.
The two steps are arguments so that the recursion can be reasoned about without unfolding them. -/
def blocks {σ : Type} (step : σ → UInt8 → UInt8 → UInt8 → UInt8 → σ) (fin : σ → List UInt8 → σ) :
    List UInt8 → σ → σ
  | b0 :: b1 :: b2 :: b3 :: rest, h => blocks step fin rest (step h b0 b1 b2 b3)
  | rest, h => fin h rest

/-- `MurmurHash3.cpp:121-148`: body loop over 4-byte blocks, then the tail. -/
def body (h : BitVec 32) (data : List UInt8) : BitVec 32 :=
  blocks (fun h b0 b1 b2 b3 => mixH h (mixK (block b0 b1 b2 b3))) tail data h

/-- `MurmurHash3.cpp:105-157` `MurmurHash3_x86_32`. -/
def x86_32 (data : List UInt8) (seed : BitVec 32) : BitVec 32 :=
  fmix (body seed data ^^^ BitVec.ofNat 32 data.length)

end Murmur

/-- `str.encode('utf-8')` of one code point. -/
def utf8Char (c : Char) : List UInt8 :=
  let n := c.toNat
  if n < 0x80 then [UInt8.ofNat n]
  else if n < 0x800 then [UInt8.ofNat (0xC0 + n / 0x40), UInt8.ofNat (0x80 + n % 0x40)]
  else if n < 0x10000 then
    [UInt8.ofNat (0xE0 + n / 0x1000), UInt8.ofNat (0x80 + n / 0x40 % 0x40),
      UInt8.ofNat (0x80 + n % 0x40)]
  else
    [UInt8.ofNat (0xF0 + n / 0x40000), UInt8.ofNat (0x80 + n / 0x1000 % 0x40),
      UInt8.ofNat (0x80 + n / 0x40 % 0x40), UInt8.ofNat (0x80 + n % 0x40)]

/-- `str.encode('utf-8')` (`consistent_hash.pyx:27`). -/
def utf8 (s : Str) : List UInt8 := s.flatMap utf8Char

/-- `consistent_hash.pyx:13-34` `consistent_hash` with seed 0. `mod_int == 0` raises ZeroDivisionError
inside a C function without `except` clause: swallowed, 0 is returned (`Nat.mod 0` would not be). -/
def consistentHash (s : Str) (modInt : Nat) : Nat :=
  if modInt = 0 then 0 else (Murmur.x86_32 (utf8 s) 0#32).toNat % modInt

end Uttut
