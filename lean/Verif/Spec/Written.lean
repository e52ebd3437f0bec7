import Verif.Model.Json

/-! Specification vocabulary for C112: the characters of serialized texts. -/

namespace Uttut.Spec

/-- Printable ASCII. -/
def Printable (c : Char) : Prop := 32 ≤ c.toNat ∧ c.toNat < 127

/-- The character occurs in a `str` or in a key inside the value. -/
inductive OccursIn (c : Char) : PyVal → Prop
  | str (s : Str) : c ∈ s → OccursIn c (.str s)
  | list (l : List PyVal) (v : PyVal) : v ∈ l → OccursIn c v → OccursIn c (.list l)
  | tuple (l : List PyVal) (v : PyVal) : v ∈ l → OccursIn c v → OccursIn c (.tuple l)
  | key (d : List (Str × PyVal)) (k : Str) (v : PyVal) : (k, v) ∈ d → c ∈ k → OccursIn c (.dict d)
  | value (d : List (Str × PyVal)) (k : Str) (v : PyVal) : (k, v) ∈ d → OccursIn c v → OccursIn c (.dict d)

end Uttut.Spec
