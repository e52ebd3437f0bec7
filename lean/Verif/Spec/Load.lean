import Verif.Spec.Pipe
import Verif.Spec.JsonText

/-! Specification vocabulary for C78: what a stored operator or pipe stands for. -/

namespace Uttut.Spec

/-- `v` is an object with the value `w` under `key`. -/
def Entry (v : PyVal) (key : String) (w : PyVal) : Prop :=
  ∃ pre post, v = .dict (pre ++ (key.toList, w) :: post) ∧ ∀ kv ∈ pre, kv.1 ≠ key.toList

/-- `v` is an object without the key. -/
def Lacks (v : PyVal) (key : String) : Prop := ∃ d, v = .dict d ∧ ∀ kv ∈ d, kv.1 ≠ key.toList

/-- `v` is not an object. -/
def NotObject (v : PyVal) : Prop := ∀ d, v ≠ .dict d

/-- `v` names a registered class and arguments with which calling it gives `op`. -/
def Describes (f : Factory) (v : PyVal) (op : Op) : Prop :=
  ∃ name kw c, Entry v "op_name" (.str name) ∧ Entry v "op_kwargs" (.dict kw) ∧ f.get name = .ok c ∧ c.call [] kw = .ok op

/-- A stored step: an object, or the text of one. -/
inductive Stored : PyVal → PyVal → Prop
  | object (d : List (Str × PyVal)) : Stored (.dict d) (.dict d)
  | text (t : Str) (v : PyVal) (h : JsonText.IsJson t v) : Stored (.str t) v

/-- What iterating over a JSON value yields. -/
inductive Elements : PyVal → List PyVal → Prop
  | list (l : List PyVal) : Elements (.list l) l
  | tuple (l : List PyVal) : Elements (.tuple l) l
  | chars (s : Str) : Elements (.str s) (s.map fun c => .str [c])
  | keys (d : List (Str × PyVal)) : Elements (.dict d) (d.map fun kv => .str kv.1)

/-- The same number of stored steps and operators, each step describing its operator. -/
inductive DescribesAll (f : Factory) : List PyVal → List Op → Prop
  | nil : DescribesAll f [] []
  | cons {i v : PyVal} {op : Op} {is : List PyVal} {ops : List Op} (h : Stored i v) (h' : Describes f v op)
      (hs : DescribesAll f is ops) : DescribesAll f (i :: is) (op :: ops)

end Uttut.Spec
