import Verif.Spec.Arguments
import Verif.Spec.Json

/-! Specification vocabulary for C92: what it means that two Python values are equal. -/

namespace Uttut.Spec

/-- Values of which `==` says that they are equal: numbers with the same value (`True` is 1), the same text, two lists or
two tuples of the same length that are equal position by position, two dicts with the same keys and equal values, in
whatever order. -/
inductive Equal : PyVal → PyVal → Prop
  | none : Equal .none .none
  | number (v w : PyVal) (i : Int) (hv : IsNumber v i) (hw : IsNumber w i) : Equal v w
  | str (s : Str) : Equal (.str s) (.str s)
  | list (l m : List PyVal) (hl : l.length = m.length)
      (h : ∀ (i : Nat) v w, l[i]? = some v → m[i]? = some w → Equal v w) : Equal (.list l) (.list m)
  | tuple (l m : List PyVal) (hl : l.length = m.length)
      (h : ∀ (i : Nat) v w, l[i]? = some v → m[i]? = some w → Equal v w) : Equal (.tuple l) (.tuple m)
  | dict (d e : List (Str × PyVal)) (hk : ∀ k, k ∈ d.map Prod.fst ↔ k ∈ e.map Prod.fst)
      (h : ∀ k v w, (k, v) ∈ d → (k, w) ∈ e → Equal v w) : Equal (.dict d) (.dict e)

/-- Two lists of values, equal position by position. -/
def EqualAll (l m : List PyVal) : Prop :=
  l.length = m.length ∧ ∀ (i : Nat) v w, l[i]? = some v → m[i]? = some w → Equal v w

end Uttut.Spec
