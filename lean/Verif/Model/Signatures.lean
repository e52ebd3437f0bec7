import Verif.Model.Operator

/-!
Model of operators whose constructor has any Python signature: parameters with or without default, `*args`,
keyword-only parameters and `**kwargs`. `Serializable.__init_subclass__` (`uttut/pipeline/ops/base.py:15-45`) wraps
every constructor alike; what it notes down of a call is read off `inspect.getfullargspec`, of which it uses `args` and
`defaults` only.
-/

namespace Uttut

/-- The signature of an `__init__` without `self`: parameters, the default values of the last of them, whether there is
a `*args`, the keyword-only parameters with their default values if any, whether there is a `**kwargs`. (Positional-only
parameters are left out.) -/
structure InitSig where
  params : List Str
  defaults : List PyVal
  varArgs : Bool
  kwOnly : List (Str × Option PyVal)
  varKw : Bool

/-- What the body of `__init__` gets: the values of the parameters, the surplus positional arguments (`*args`), the
values of the keyword-only parameters, the surplus keyword arguments (`**kwargs`). -/
structure InitArgs where
  values : List PyVal
  surplus : List PyVal
  kwOnly : List PyVal
  extra : List (Str × PyVal)

/-- Binding of one parameter that got no positional argument: keyword argument, else default value, else TypeError. -/
def InitSig.bindParam (g : InitSig) (kwargs : List (Str × PyVal)) (p : Str) : Res PyVal :=
  match dictGet kwargs p with
  | some v => .ok v
  | none =>
    match dictGet (g.params.reverse.zip g.defaults.reverse) p with
    | some v => .ok v
    | none => .error .typeError

/-- Binding of one keyword-only parameter. -/
def InitSig.bindKwOnly (kwargs : List (Str × PyVal)) (p : Str × Option PyVal) : Res PyVal :=
  match dictGet kwargs p.1 with
  | some v => .ok v
  | none =>
    match p.2 with
    | some v => .ok v
    | none => .error .typeError

/-- Is it the name of a parameter? -/
def InitSig.known (g : InitSig) (k : Str) : Bool := g.params.contains k || (g.kwOnly.map Prod.fst).contains k

/-- Python's binding of the call `f(self, *args, **kwargs)` (`ops/base.py:25`): TypeError for a second `self`, for
surplus, unknown, doubly given and missing arguments. -/
def InitSig.bind (g : InitSig) (args : List PyVal) (kwargs : List (Str × PyVal)) : Res InitArgs :=
  if kwargs.any (fun kv => kv.1 == "self".toList) then .error .typeError
  else if !g.varArgs && args.length > g.params.length then .error .typeError
  else if kwargs.any (fun kv => (g.params.take args.length).contains kv.1) then .error .typeError
  else if !g.varKw && kwargs.any (fun kv => !g.known kv.1) then .error .typeError
  else do
    let filled ← (g.params.drop args.length).mapM (g.bindParam kwargs)
    let only ← g.kwOnly.mapM (InitSig.bindKwOnly kwargs)
    return { values := args.take g.params.length ++ filled, surplus := args.drop g.params.length, kwOnly := only,
             extra := kwargs.filter fun kv => !g.known kv.1 }

/-- An operator class whose constructor has the signature `sig`; `ownInit` as in `OpClass`. -/
structure SigClass where
  name : Str
  inputType : SeqType
  outputType : SeqType
  sig : InitSig
  ownInit : Bool
  init : InitArgs → Res (Seq → Res (Seq × Aligner))

/-- An operator object of such a class. -/
structure SigOp where
  cls : SigClass
  configs : List (Str × PyVal)
  run : Seq → Res (Seq × Aligner)

/-- `ops/base.py:26` `inspect.getfullargspec(original_init)`: `args` without `self`, and `defaults`. The wrapper of an
inherited constructor shows neither. -/
def SigClass.argspec (c : SigClass) : List Str × List PyVal :=
  if c.ownInit then (c.sig.params, c.sig.defaults) else ([], [])

/-- `ops/base.py:27-43` the captured `_configs`. -/
def SigClass.capture (c : SigClass) (args : List PyVal) (kwargs : List (Str × PyVal)) : List (Str × PyVal) :=
  let (params, defaults) := c.argspec
  let configs := dictUpdate [] (params.zip args)
  let configs := dictUpdate configs kwargs
  if defaults.isEmpty then configs
  else
    dictUpdate configs
      (((params.reverse ++ ["self".toList]).zip defaults.reverse).filter fun kv =>
        (dictGet configs kv.1).isNone)

/-- `ops/base.py:24-43` calling the class: the wrapped `__init__`. -/
def SigClass.call (c : SigClass) (args : List PyVal) (kwargs : List (Str × PyVal)) : Res SigOp := do
  let b ← c.sig.bind args kwargs
  let run ← c.init b
  return { cls := c, configs := c.capture args kwargs, run }

/-- `ops/base.py:55-70` an operator saved (`op_name`, `op_kwargs`) and loaded again, while its class is registered under
its name: `cls(**kwargs)`. Simplified: the keyword arguments come back as they were, without the way through JSON text,
which is C66's subject. -/
def SigOp.reload (op : SigOp) : Res SigOp := op.cls.call [] op.configs

/-- `ops/base.py:143-144` `__eq__`, as `Op.eq`. -/
def SigOp.eq (a b : SigOp) : Bool :=
  a.cls.name == b.cls.name && PyVal.eq (.dict a.configs) (.dict b.configs)

end Uttut
