import Verif.Model.Json

/-! What remains of a value once it is written as JSON: tuples become lists. -/

namespace Uttut.Spec

mutual

/-- The value with lists for tuples. -/
def asLists : PyVal → PyVal
  | .none => .none
  | .bool b => .bool b
  | .int i => .int i
  | .str s => .str s
  | .list l => .list (allAsLists l)
  | .tuple l => .list (allAsLists l)
  | .dict d => .dict (valuesAsLists d)

/-- Each value with lists for tuples. -/
def allAsLists : List PyVal → List PyVal
  | [] => []
  | v :: l => asLists v :: allAsLists l

/-- The values of a dict with lists for tuples. -/
def valuesAsLists : List (Str × PyVal) → List (Str × PyVal)
  | [] => []
  | (k, v) :: d => (k, asLists v) :: valuesAsLists d

end

end Uttut.Spec
