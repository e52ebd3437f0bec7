import Verif.Model.Float

/-!
`entity_overlapping_ratio` with all of Python's floats: IEEE 754 binary64 with its bounds on the exponent, subnormal
numbers, infinities and NaN, and with a `wrong_penalty_rate` that is an int or a float. Simplification: the two zeros
are one value (`-0.0` differs from `0.0` in no result of this function: the sum starts with `0.0`, and `1 - x` is 1 for
both), and the NaNs are one value.
-/

namespace Uttut

open Float64

/-- The values of a Python float. -/
inductive Double where
  | fin (x : Rat)
  | inf
  | negInf
  | nan
  deriving DecidableEq, Repr

namespace Double

/-- Rounding of a positive number: 53 significant bits, but no bit below `2^-1074`. -/
def roundPos (x : Rat) : Rat :=
  (roundHalfEven (x / (2 : Rat) ^ (max (Int.log 2 x - 52) (-1074))) : Rat) * (2 : Rat) ^ (max (Int.log 2 x - 52) (-1074))

/-- Rounding of a positive number, to infinity if it is too large. -/
def ofPos (x : Rat) : Double := if (2 : Rat) ^ 1024 ≤ roundPos x then inf else fin (roundPos x)

/-- `-x` of a float. -/
def neg : Double → Double
  | fin x => fin (-x)
  | inf => negInf
  | negInf => inf
  | nan => nan

/-- The float for the exact result `x` of an operation. -/
def ofExact (x : Rat) : Double := if x < 0 then (ofPos (-x)).neg else if x = 0 then fin 0 else ofPos x

/-- `a + b` of floats. -/
def add : Double → Double → Double
  | fin x, fin y => ofExact (x + y)
  | nan, _ => nan
  | _, nan => nan
  | inf, negInf => nan
  | negInf, inf => nan
  | inf, _ => inf
  | _, inf => inf
  | negInf, _ => negInf
  | _, negInf => negInf

/-- `a - b` of floats. -/
def sub (a b : Double) : Double := a.add b.neg

/-- `a / b` of floats that are not both finite. -/
def divSpecial : Double → Double → Double
  | nan, _ => nan
  | _, nan => nan
  | fin _, _ => fin 0
  | inf, fin y => if y < 0 then negInf else inf
  | negInf, fin y => if y < 0 then inf else negInf
  | inf, _ => nan
  | negInf, _ => nan

/-- `a / b` of floats. -/
def div (a b : Double) : Res Double :=
  if b = fin 0 then .error .zeroDivisionError
  else
    match a, b with
    | fin x, fin y => .ok (ofExact (x / y))
    | a, b => .ok (divSpecial a b)

/-- An int in an operation with a float; `OverflowError: int too large to convert to float`. -/
def ofInt (n : Int) : Res Double :=
  match ofExact n with
  | fin x => .ok (fin x)
  | _ => .error .overflowError

end Double

/-- A number given as `wrong_penalty_rate`. -/
inductive Rate where
  | int (n : Int)
  | float (x : Double)

/-- The rate as summand of a float. -/
def Rate.toDouble : Rate → Res Double
  | .int n => Double.ofInt n
  | .float x => .ok x

/-- `entity_overlapping_ratio.py:45-56` `penalty_on_same_entity_or_not`, converted to a float by `+=`. -/
def doublePenalty (rate : Rate) (ent1 ent2 : Int) : Res Double :=
  if ent1 = ent2 then Double.ofInt 0
  else if ent1 = 0 ∨ ent2 = 0 then Double.ofInt 1
  else rate.toDouble

/-- `entity_overlapping_ratio.py:71-76` the loop. -/
def doubleLoop (rate : Rate) (acc : Double) : List (Int × Int) → Res Double
  | [] => .ok acc
  | p :: ps => do
    let d ← doublePenalty rate p.1 p.2
    doubleLoop rate (acc.add d) ps

/-- `entity_overlapping_ratio.py:59-78` `entity_overlapping_ratio`. -/
def doubleOverlappingRatio (d1 d2 : Datum) (rate : Rate) : Res Double :=
  if d1.hasSameUtteranceAs d2 = false then .error .differentUtterance
  else
    match expandEntityToList d1, expandEntityToList d2 with
    | some l1, some l2 => do
      let total ← doubleLoop rate (.fin 0) (l1.zip l2)
      let len ← Double.ofInt d1.utterance.length
      let q ← total.div len
      let one ← Double.ofInt 1
      return one.sub q
    | _, _ => .error .nonTermination

end Uttut
