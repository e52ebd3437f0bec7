import Verif.Model.Loaded
import Verif.Spec.Arguments
import Verif.Spec.Load

/-! Specification vocabulary for C94: pipes loaded with any value as checkpoints. -/

namespace Uttut.Spec

/-- The same pipe, with its checkpoints as a value. -/
def loaded (p : Pipe) : LPipe := ⟨p.steps, .dict (p.checkpoints.map fun kv => (kv.1, .int kv.2))⟩

/-- The value is neither an int nor a bool, so it cannot be a position. -/
def NoNumber (v : PyVal) : Prop := ∀ i, ¬ IsNumber v i

/-- Python's `name in value` for values that are no dicts: an element of a list, a part of a text. -/
inductive Mentions : PyVal → Str → Prop
  | list (l : List PyVal) (name : Str) (h : .str name ∈ l) : Mentions (.list l) name
  | tuple (l : List PyVal) (name : Str) (h : .str name ∈ l) : Mentions (.tuple l) name
  | text (s name : Str) (h : name <:+: s) : Mentions (.str s) name

/-- Values that `name in value` and `len(value)` can be asked of, other than dicts. -/
inductive Container : PyVal → Prop
  | list (l : List PyVal) : Container (.list l)
  | tuple (l : List PyVal) : Container (.tuple l)
  | text (s : Str) : Container (.str s)

end Uttut.Spec
