import Verif.Spec.Pipe

/-! Labels that keep their order. -/

namespace Uttut.Spec

/-- Every label of `ys` is 0 or stands in `ls`, at a place that does not lie before the place of an earlier one. -/
def LabelsInOrder (ls ys : List Int) : Prop :=
  ∃ place : Nat → Nat, (∀ i j, i ≤ j → place i ≤ place j) ∧
    ∀ (j : Nat) y, ys[j]? = some y → y = 0 ∨ ls[place j]? = some y

/-- All places of the label lie side by side: between two of them there is no other label than 0. -/
def Unsplit (l : Int) (ls : List Int) : Prop :=
  ∀ i j k : Nat, i ≤ j → j ≤ k → ls[i]? = some l → ls[k]? = some l → ls[j]? = some l ∨ ls[j]? = some 0

end Uttut.Spec
