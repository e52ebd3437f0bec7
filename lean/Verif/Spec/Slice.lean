import Verif.Spec.Pipe

/-! Specification of Python's extended slices for C63. -/

namespace Uttut.Spec

/-- The position a bound refers to in a list of `n` items: negative ones count from the end. -/
def place (n : Nat) (i : Int) : Int := if i < 0 then i + n else i

/-- Position `j` is in the slice `[start:stop:step]` of `n` items, for a positive step: on the way from the start up, before
the stop. -/
def SelectedUp (n : Nat) (start stop : Option Int) (step : Int) (j : Nat) : Prop :=
  j < n ∧ (∃ k : Nat, (j : Int) = max 0 ((start.map (place n)).getD 0) + k * step) ∧ ∀ b, stop = some b → (j : Int) < place n b

/-- The same for a negative step: on the way from the start down, after the stop. -/
def SelectedDown (n : Nat) (start stop : Option Int) (step : Int) (j : Nat) : Prop :=
  j < n ∧ (∃ k : Nat, (j : Int) = min ((n : Int) - 1) ((start.map (place n)).getD (n - 1)) + k * step) ∧
    ∀ b, stop = some b → place n b < (j : Int)

end Uttut.Spec
