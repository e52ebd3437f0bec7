import Verif.Spec.Float

/-! What a finite Python float is with bounded exponents, without the way rounding is computed. -/

namespace Uttut.Spec

/-- The finite numbers of binary64. -/
def IsDouble (x : Rat) : Prop := ∃ m e : Int, |m| < 2 ^ 53 ∧ -1074 ≤ e ∧ e ≤ 971 ∧ x = m * (2 : Rat) ^ e

/-- The last bit of the float is 0. -/
def IsEvenDouble (x : Rat) : Prop :=
  ∃ m e : Int, |m| ≤ 2 ^ 53 ∧ -1074 ≤ e ∧ (2 ^ 52 ≤ |m| ∨ e = -1074) ∧ m % 2 = 0 ∧ x = m * (2 : Rat) ^ e

/-- `y` is the float for the exact number `x` (IEEE 754 binary64, round half to even). -/
structure NearestDouble (x y : Rat) : Prop where
  double : IsDouble y
  nearest : ∀ z, IsDouble z → |y - x| ≤ |z - x|
  even : ∀ z, IsDouble z → z ≠ y → |y - x| = |z - x| → IsEvenDouble y

/-- Some character has two different entities. -/
def Clash (n : Nat) (a b : Nat → Int) : Prop := ∃ i, i < n ∧ a i ≠ b i ∧ a i ≠ 0 ∧ b i ≠ 0

end Uttut.Spec
