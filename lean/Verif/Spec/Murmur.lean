/-!
MurmurHash3_x86_32 as its author describes it, in arithmetic on natural numbers (independent of the model, which
follows the C++ code on 32-bit words).
-/

namespace Uttut.Spec.Murmur3

/-- The number with the given little-endian digits in base 256. -/
def littleEndian : List Nat → Nat
  | [] => 0
  | b :: bs => b + 256 * littleEndian bs

/-- Rotation of a 32-bit number to the left. -/
def rotate (r x : Nat) : Nat := x * 2 ^ r % 2 ^ 32 + x / 2 ^ (32 - r)

/-- What is done to the bytes before they enter the state. -/
def scramble (k : Nat) : Nat := rotate 15 (k * 0xcc9e2d51 % 2 ^ 32) * 0x1b873593 % 2 ^ 32

/-- One whole block of four bytes. -/
def round (h k : Nat) : Nat := (rotate 13 (h ^^^ scramble k) * 5 + 0xe6546b64) % 2 ^ 32

/-- The finaliser. -/
def avalanche (h : Nat) : Nat :=
  let h := (h ^^^ h / 2 ^ 16) * 0x85ebca6b % 2 ^ 32
  let h := (h ^^^ h / 2 ^ 13) * 0xc2b2ae35 % 2 ^ 32
  h ^^^ h / 2 ^ 16

/-- The hash of a list of bytes: the blocks at positions 0, 4, 8, ..., the rest (absent bytes count as 0), the length,
the finaliser. -/
def hash (seed : Nat) (data : List Nat) : Nat :=
  let n := data.length / 4
  let h := (List.range n).foldl (fun h i => round h (littleEndian ((data.drop (4 * i)).take 4))) seed
  let h := h ^^^ scramble (littleEndian (data.drop (4 * n)))
  avalanche (h ^^^ data.length % 2 ^ 32)

end Uttut.Spec.Murmur3
