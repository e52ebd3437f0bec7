import Verif.Model.Operator

/-! Specification vocabulary for operator construction. -/

namespace Uttut

/-- The signature of a Python function: distinct parameter names, defaults for the last of them. -/
structure Signature (c : OpClass) : Prop where
  nodup : c.params.Nodup
  defaults : c.defaults.length ≤ c.params.length

/-- The value that Python binds to the `i`-th parameter, called `p`, in the call `f(*args, **kwargs)`: the `i`-th
positional argument, else the keyword argument, else the default value. -/
inductive Bound (c : OpClass) (args : List PyVal) (kwargs : List (Str × PyVal)) (i : Nat) (p : Str) : PyVal → Prop
  | positional (v : PyVal) (h : args[i]? = some v) : Bound c args kwargs i p v
  | keyword (v : PyVal) (hi : args.length ≤ i) (h : (p, v) ∈ kwargs) : Bound c args kwargs i p v
  | dflt (v : PyVal) (hi : args.length ≤ i) (hk : p ∉ kwargs.map Prod.fst) (j : Nat)
      (hj : i = c.params.length - c.defaults.length + j) (h : c.defaults[j]? = some v) : Bound c args kwargs i p v

/-- An operator object that was made by calling its class (with keyword arguments, which are a dict). -/
def Constructed (op : Op) : Prop :=
  ∃ args kwargs, (kwargs.map Prod.fst).Nodup ∧ op.cls.call args kwargs = .ok op

end Uttut
