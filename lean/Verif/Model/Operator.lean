import Verif.Model.Base
import Verif.Model.Json

/-!
Model of the operator classes as objects: construction and config capture
(`uttut/pipeline/ops/base.py:11-74` `Serializable`), the type-checked `transform`
(`ops/base.py:77-162` `Operator`) and the class registry (`ops/factory.py`).
-/

namespace Uttut

/-- An operator class. `params`/`defaults` are the parameters of `__init__` without `self` and the
default values of the last of them; `ownInit` says whether the class body itself defines `__init__`
(a class that inherits one wraps the inherited wrapper again); `init` is the body of `__init__` on the bound
arguments and returns the `_transform` of the new object. -/
structure OpClass where
  name : Str
  inputType : SeqType
  outputType : SeqType
  params : List Str
  defaults : List PyVal
  ownInit : Bool
  init : List PyVal → Res (Seq → Res (Seq × Aligner))

/-- An operator object: its class, `_configs` and `_transform`. -/
structure Op where
  cls : OpClass
  configs : List (Str × PyVal)
  run : Seq → Res (Seq × Aligner)

/-- Python's default value of a parameter, if it has one. -/
def OpClass.default? (c : OpClass) (p : Str) : Option PyVal :=
  dictGet (c.params.reverse.zip c.defaults.reverse) p

/-- Binding of one parameter that got no positional argument. -/
def OpClass.bindParam (c : OpClass) (kwargs : List (Str × PyVal)) (p : Str) : Res PyVal :=
  match dictGet kwargs p with
  | some v => .ok v
  | none =>
    match c.default? p with
    | some v => .ok v
    | none => .error .typeError

/-- Python's binding of a call `f(*args, **kwargs)` to the parameters: the values in parameter order;
TypeError for surplus, unknown, doubly given and missing arguments. -/
def OpClass.bindArgs (c : OpClass) (args : List PyVal) (kwargs : List (Str × PyVal)) :
    Res (List PyVal) :=
  if args.length > c.params.length then .error .typeError
  else if kwargs.any (fun kv => !(c.params.drop args.length).contains kv.1) then .error .typeError
  else do
    let rest ← (c.params.drop args.length).mapM (c.bindParam kwargs)
    return args ++ rest

/-- `inspect.getfullargspec(original_init)` without `self`: the wrapper of an inherited `__init__` shows no
named parameters (`ops/base.py:24, 26`). -/
def OpClass.argspec (c : OpClass) : List Str × List PyVal :=
  if c.ownInit then (c.params, c.defaults) else ([], [])

/-- `dict.update`. -/
def dictUpdate {κ ν : Type} [DecidableEq κ] (d e : List (κ × ν)) : List (κ × ν) :=
  e.foldl (fun d kv => dictSet d kv.1 kv.2) d

/-- `ops/base.py:27-43` the captured `_configs`. -/
def OpClass.capture (c : OpClass) (args : List PyVal) (kwargs : List (Str × PyVal)) :
    List (Str × PyVal) :=
  let (params, defaults) := c.argspec
  let configs := dictUpdate [] (params.zip args)
  let configs := dictUpdate configs kwargs
  if defaults.isEmpty then configs
  else
    dictUpdate configs
      (((params.reverse ++ ["self".toList]).zip defaults.reverse).filter fun kv =>
        (dictGet configs kv.1).isNone)

/-- `ops/base.py:24-43` calling the class: the wrapped `__init__`. -/
def OpClass.call (c : OpClass) (args : List PyVal) (kwargs : List (Str × PyVal)) : Res Op := do
  let vals ← c.bindArgs args kwargs
  let run ← c.init vals
  return { cls := c, configs := c.capture args kwargs, run }

/-- `ops/base.py:114-137` `Operator.transform`. -/
def Op.transform (op : Op) (s : Seq) : Res (Seq × Aligner) :=
  if s.type ≠ op.cls.inputType then .error .typeError
  else do
    let (out, a) ← op.run s
    if out.type ≠ op.cls.outputType then .error .typeError
    else return (out, a)

/-- `ops/base.py:143-144` `__eq__`. Classes are compared by name: registration keeps names unique
(`factory.py:17-20`). -/
def Op.eq (a b : Op) : Bool :=
  a.cls.name == b.cls.name && PyVal.eq (.dict a.configs) (.dict b.configs)

/-- `factory.py:3-4` the registry. -/
abbrev Factory := List (Str × OpClass)

/-- `factory.py:6-20` `register`: the registry afterwards, and the outcome. -/
def Factory.register (f : Factory) (name : Str) (c : OpClass) : Factory × Res Unit :=
  match dictGet f name with
  | none => (dictSet f name c, .ok ())
  | some _ => (f, .error .keyError)

/-- `factory.py:22-25` `__getitem__`. -/
def Factory.get (f : Factory) (name : Str) : Res OpClass :=
  match dictGet f name with
  | some c => .ok c
  | none => .error .keyError

/-- `value[key]` for a string key: KeyError on a dict without it, TypeError on other values. -/
def PyVal.getItem (v : PyVal) (key : Str) : Res PyVal :=
  match v with
  | .dict d =>
    match dictGet d key with
    | some w => .ok w
    | Option.none => .error .keyError
  | _ => .error .typeError

/-- `op_factory[cls_name]` for any value: unhashable names raise TypeError, other non-strings are not
registered. -/
def Factory.getVal (f : Factory) (v : PyVal) : Res OpClass :=
  match v with
  | .str name => f.get name
  | .list _ | .dict _ => .error .typeError
  | _ => .error .keyError

/-- `ops/base.py:55-59` `from_dict`. -/
def Op.fromDict (f : Factory) (params : PyVal) : Res Op := do
  let name ← params.getItem "op_name".toList
  let kwargs ← params.getItem "op_kwargs".toList
  let c ← f.getVal name
  match kwargs with
  | .dict kw => c.call [] kw
  | _ => .error .typeError

/-- `ops/base.py:63-66` the dict written by `serialize`. -/
def Op.toDict (op : Op) : PyVal :=
  .dict [("op_name".toList, .str op.cls.name), ("op_kwargs".toList, .dict op.configs)]

/-- `ops/base.py:61-70` `serialize`. -/
def Op.serialize (op : Op) : Str := Json.dumps false (some 2) op.toDict

/-- `ops/base.py:50-53` `deserialize`. -/
def Op.deserialize (f : Factory) (text : Str) : Res Op := do
  let v ← Json.loads text
  Op.fromDict f v

end Uttut
