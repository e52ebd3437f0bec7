import Verif.Model.Pipe

/-!
Model of `Pipe.summary` (`uttut/pipeline/pipe.py:145-176`) and `Operator.__str__` (`uttut/pipeline/ops/base.py:146-161`).
Printing is modelled as the list of printed lines. Python's `repr` and `reprlib.repr` are parameters.
-/

namespace Uttut

/-- Python's renderings of values: `repr` and `reprlib.repr`. -/
structure Reprs where
  repr : PyVal → Str
  short : PyVal → Str

/-- `sep.join(strs)`. -/
def joinWith (sep : Str) : List Str → Str
  | [] => []
  | [s] => s
  | s :: t :: rest => s ++ sep ++ joinWith sep (t :: rest)

/-- `ops/base.py:148-155` `custom_repr`. -/
def Reprs.custom (r : Reprs) : PyVal → Str
  | .dict d => "{".toList ++
      joinWith ", ".toList ((d.take 2).map fun kv => r.repr (.str kv.1) ++ ": ".toList ++ r.repr kv.2) ++
      ", ...}".toList
  | v => r.short v

/-- `ops/base.py:146-161` `Operator.__str__`. -/
def Op.toStr (r : Reprs) (op : Op) : Str :=
  op.cls.name ++ "(".toList ++
    joinWith ", ".toList (op.configs.map fun kv => kv.1 ++ "=".toList ++ r.custom kv.2) ++ ")".toList

/-- `input_type.__name__`. -/
def SeqType.name : SeqType → Str
  | .str => "str".toList
  | .list => "list".toList

/-- `f"{n}"` of a length. -/
def lengthStr (n : Nat) : Str := n.repr.toList

namespace Pipe

/-- `pipe.py:151-154` `inverse_checkpoint`: later names replace earlier ones with the same index. -/
def inverseCheckpoint (p : Pipe) : List (Int × Str) :=
  dictUpdate [] (p.checkpoints.map fun kv => (kv.2, kv.1))

/-- `pipe.py:158-169` the loop over the steps, `idx` from 1. -/
def summaryLoop (r : Reprs) (inv : List (Int × Str)) : List Op → (idx : Int) → (prev : SeqType) → List Str
  | [], _, _ => []
  | op :: ops, idx, prev =>
    [" |    ".toList ++ op.toStr r] ++
    (if op.cls.outputType ≠ prev then [" v".toList, op.cls.outputType.name, " v".toList] else []) ++
    (match dictGet inv idx with
      | some name => [" |".toList, " @--> checkpoint: ".toList ++ r.repr (.str name), " |".toList]
      | none => []) ++
    summaryLoop r inv ops (idx + 1) op.cls.outputType

/-- `pipe.py:145-176` `summary`: the printed lines. -/
def summary (p : Pipe) (r : Reprs) : Res (List Str) := do
  let head := [List.replicate 80 '_', "Type  Operator".toList, List.replicate 80 '=']
  let body ← if p.steps.isEmpty then .ok [] else do
    let i ← p.inputType
    let o ← p.outputType
    .ok ([i.name, " v".toList] ++ summaryLoop r p.inverseCheckpoint p.steps 1 i ++
      [" v".toList, List.replicate 80 '=', i.name ++ " -> ".toList ++ o.name])
  return head ++ body ++ ["Total operators: ".toList ++ lengthStr p.steps.length,
    "Total checkpoints: ".toList ++ lengthStr p.checkpoints.length, List.replicate 80 '_']

end Pipe

end Uttut
