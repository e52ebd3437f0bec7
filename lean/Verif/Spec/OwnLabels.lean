import Verif.Spec.Order
import Verif.Spec.Rename

/-! Label functions of operators written by users. -/

namespace Uttut.Spec

/-- A label function that returns as many labels as it is asked for, each 0 or one of the given labels, in their order. -/
structure Ordered (F : List Int → Nat → List Int) : Prop where
  length : ∀ x n, (F x n).length = n
  order : ∀ x n, LabelsInOrder x (F x n)

/-- A label function that does not look at the numbers of the classes. -/
def NumberBlind (F : List Int → Nat → List Int) : Prop :=
  ∀ f, Renumbering f → ∀ (x : List Int) n, F (x.map f) n = (F x n).map f

end Uttut.Spec
