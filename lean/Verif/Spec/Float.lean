import Mathlib.Data.Rat.Defs
import Mathlib.Algebra.Order.Ring.Rat
import Mathlib.Algebra.Order.Field.Basic
import Mathlib.Algebra.Order.Group.Unbundled.Abs
import Mathlib.Algebra.Order.AbsoluteValue.Basic

/-! What a Python float is, without the way rounding is computed. -/

namespace Uttut.Spec

/-- The numbers a float can be: at most 53 significant bits. -/
def IsFloat (x : Rat) : Prop := ∃ m e : Int, |m| ≤ 2 ^ 53 ∧ x = m * (2 : Rat) ^ e

/-- All 53 bits are used, and the last one is 0. -/
def IsEvenFloat (x : Rat) : Prop := x = 0 ∨ ∃ m e : Int, 2 ^ 52 ≤ |m| ∧ |m| ≤ 2 ^ 53 ∧ m % 2 = 0 ∧ x = m * (2 : Rat) ^ e

/-- `y` is the float for the exact number `x` (IEEE 754, round half to even). -/
structure Nearest (x y : Rat) : Prop where
  float : IsFloat y
  nearest : ∀ z, IsFloat z → |y - x| ≤ |z - x|
  even : ∀ z, IsFloat z → z ≠ y → |y - x| = |z - x| → IsEvenFloat y

end Uttut.Spec
