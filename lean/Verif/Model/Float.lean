import Verif.Model.Elements
import Mathlib.Data.Int.Log
import Mathlib.Data.Rat.Floor

/-!
`entity_overlapping_ratio` computed with Python floats. A float is the rational number it stands for; every operation
gives the float nearest to the exact result (IEEE 754 binary64, round half to even). Simplification: the range of
exponents is not bounded, so there is no overflow to infinity and there are no subnormal numbers; NaN and infinity as
`wrong_penalty_rate` are left out.
-/

namespace Uttut

namespace Float64

/-- The integer nearest to `y`; of two the even one. -/
def roundHalfEven (y : Rat) : Int :=
  if y - (⌊y⌋ : Rat) < 1 / 2 then ⌊y⌋
  else if 1 / 2 < y - (⌊y⌋ : Rat) then ⌊y⌋ + 1
  else if ⌊y⌋ % 2 = 0 then ⌊y⌋
  else ⌊y⌋ + 1

/-- Rounding of a positive number: 53 significant bits. -/
def roundPos (x : Rat) : Rat :=
  (roundHalfEven (x / (2 : Rat) ^ (Int.log 2 x - 52)) : Rat) * (2 : Rat) ^ (Int.log 2 x - 52)

/-- The float that stands for the exact result `x` of an operation. -/
def toFloat (x : Rat) : Rat :=
  if x < 0 then -roundPos (-x) else if x = 0 then 0 else roundPos x

end Float64

open Float64

/-- `entity_overlapping_ratio.py:71-75` the loop, in floats: `penalty += ...`. The penalty is an int or
`wrong_penalty_rate`, which, if it is an int, is converted to a float. -/
def floatPenalty (rate : Rat) (ps : List (Int × Int)) : Rat :=
  ps.foldl (fun acc p => toFloat (acc + penalty p.1 p.2 (toFloat rate))) 0

/-- `entity_overlapping_ratio.py:59-78` `entity_overlapping_ratio`, in floats. -/
def floatOverlappingRatio (d1 d2 : Datum) (rate : Rat) : Res Rat :=
  if d1.hasSameUtteranceAs d2 = false then .error .differentUtterance
  else
    match expandEntityToList d1, expandEntityToList d2 with
    | some l1, some l2 =>
      let total := floatPenalty rate (l1.zip l2)
      if d1.utterance.length = 0 then .error .zeroDivisionError
      else .ok (toFloat (1 - toFloat (total / toFloat (d1.utterance.length : Rat))))
    | _, _ => .error .nonTermination

end Uttut
