import Verif.Spec.Confuse

/-! What a step can produce. -/

namespace Uttut.Spec

/-- Some input makes the step return this sequence. -/
def Produces (op : Op) (t : Seq) : Prop := ∃ s, Gives op s t

/-- The texts the step produces are those with the property, and these are the texts it returns as they are. -/
def Cleans (op : Op) (clean : Str → Prop) : Prop :=
  ∀ t : Str, (Produces op (.str t) ↔ clean t) ∧ (Gives op (.str t) (.str t) ↔ clean t)

end Uttut.Spec
