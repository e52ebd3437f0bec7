import Verif.Model.Operator

/-! Comparing registries of operators. -/

namespace Uttut

/-- `factory.py:27-31` `__eq__` with another object (`none`: not an `OperatorFactory`): `==` of the two dicts. `same` says
whether two classes are the same object; classes have no `__eq__` of their own. -/
def Factory.eq (same : OpClass → OpClass → Bool) (f : Factory) : Option Factory → Bool
  | none => false
  | some g => f.length == g.length && f.all fun kv =>
      match dictGet g kv.1 with
      | some c => same kv.2 c
      | none => false

end Uttut
