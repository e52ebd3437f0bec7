import Verif.Model.Builtins
import Verif.Model.Summary

/-!
Pipes whose checkpoints are any value: `Pipe.deserialize` stores what the text has under `checkpoints` without looking
at it (`pipe.py:252`). `Model/Pipe.lean` has pipes whose checkpoints are a dict of ints; this file has the same methods
for all values, in the order in which Python meets the exceptions. Values that `json.loads` returns contain no tuples.
-/

namespace Uttut

/-- `pipe.py:23-25` a pipe with any value as `_checkpoints`. -/
structure LPipe where
  steps : List Op
  checkpoints : PyVal

/-- `value.keys()` and `value.items()`: only dicts have them. -/
def PyVal.items : PyVal → Res (List (Str × PyVal))
  | .dict d => .ok d
  | _ => .error .attributeError

/-- `value[name] = n` for a `str` name: only dicts take it. -/
def PyVal.setItem (v : PyVal) (name : Str) (n : Int) : Res PyVal :=
  match v with
  | .dict d => .ok (.dict (dictSet d name (.int n)))
  | _ => .error .typeError

/-- `value.copy()`: dicts and lists have it. -/
def PyVal.copy : PyVal → Res PyVal
  | .dict d => .ok (.dict d)
  | .list l => .ok (.list l)
  | _ => .error .attributeError

/-- `len(value)`. -/
def PyVal.len : PyVal → Res Nat
  | .str s => .ok s.length
  | .list l => .ok l.length
  | .tuple l => .ok l.length
  | .dict d => .ok d.length
  | _ => .error .typeError

namespace LPipe

/-- `pipe.py:133-137` `input_type`. -/
def inputType (p : LPipe) : Res SeqType := Pipe.inputType ⟨p.steps, []⟩

/-- `pipe.py:139-143` `output_type`. -/
def outputType (p : LPipe) : Res SeqType := Pipe.outputType ⟨p.steps, []⟩

/-- `pipe.py:72-77` the part of `add_op` after the type check. -/
def push (p : LPipe) (op : Op) (checkpoint : Option Str) : LPipe × Res Unit :=
  let steps := p.steps ++ [op]
  match checkpoint with
  | none => (⟨steps, p.checkpoints⟩, .ok ())
  | some name =>
    match p.checkpoints.has with
    | .error e => (⟨steps, p.checkpoints⟩, .error e)
    | .ok has =>
      if has name then (⟨steps, p.checkpoints⟩, .error .keyError)
      else
        match p.checkpoints.setItem name steps.length with
        | .error e => (⟨steps, p.checkpoints⟩, .error e)
        | .ok cks => (⟨steps, cks⟩, .ok ())

/-- `pipe.py:52-77` `add_op`. -/
def addOp (p : LPipe) (op : Op) (checkpoint : Option Str) : LPipe × Res Unit :=
  match p.steps.getLast? with
  | none => p.push op checkpoint
  | some last =>
    if op.cls.inputType ≠ last.cls.outputType then (p, .error .typeError) else p.push op checkpoint

/-- `pipe.py:98-101` the new positions: `i + len(self.steps)` for each name; only numbers can be added. -/
def shifted (n : Nat) (d : List (Str × PyVal)) : Res (List (Str × PyVal)) :=
  d.mapM fun kv => do
    let i ← kv.2.asInt
    return (kv.1, .int (i + n))

/-- `pipe.py:87-102` `__iadd__` (the pipe after the call, and the outcome). The steps are added before the positions of
the checkpoints are computed (`:97`). -/
def iadd (p q : LPipe) : LPipe × Res Unit :=
  match p.outputType, q.inputType with
  | .error e, _ => (p, .error e)
  | _, .error e => (p, .error e)
  | .ok a, .ok b =>
    if a ≠ b then (p, .error .typeError)
    else
      match p.checkpoints.items, q.checkpoints.items with
      | .error e, _ => (p, .error e)
      | _, .error e => (p, .error e)
      | .ok d, .ok d' =>
        if d.any fun kv => (dictGet d' kv.1).isSome then (p, .error .keyError)
        else
          let steps := p.steps ++ q.steps
          match shifted steps.length d' with
          | .error e => (⟨steps, .dict d⟩, .error e)
          | .ok s => (⟨steps, .dict (dictUpdate d s)⟩, .ok ())

/-- `pipe.py:104-108` `__copy__`. -/
def copy (p : LPipe) : Res LPipe := do
  let cks ← p.checkpoints.copy
  return ⟨p.steps, cks⟩

/-- `pipe.py:82-85` `__add__`. -/
def concat (p q : LPipe) : Res LPipe := do
  let c ← p.copy
  match c.iadd q with
  | (r, .ok _) => .ok r
  | (_, .error e) => .error e

/-- `pipe.py:79-80` `__eq__`. -/
def eq (p q : LPipe) : Bool :=
  p.steps.length == q.steps.length && (p.steps.zip q.steps).all (fun ab => ab.1.eq ab.2)
    && p.checkpoints.eq q.checkpoints

/-- `pipe.py:114-117` the checkpoints of a slice: only numbers can be compared with the start, and only with a number. -/
def sliceCheckpoints (start : Option Int) : List (Str × PyVal) → Res (List (Str × PyVal))
  | [] => .ok []
  | (name, v) :: rest =>
    match v.asInt, start with
    | .ok i, some a => do
      let tail ← sliceCheckpoints start rest
      return if i > a then (name, .int (i - a)) :: tail else tail
    | _, _ => .error .typeError

/-- `pipe.py:110-118` `__getitem__` with a slice. -/
def getSlice (p : LPipe) (start stop step : Option Int) : Res LPipe := do
  let steps ← sliceStep p.steps start stop step
  let d ← p.checkpoints.items
  let cks ← sliceCheckpoints start d
  return ⟨steps, .dict cks⟩

/-- `pipe.py:200-224` `transform_sequence`: the checkpoints are only handed on. -/
def transformSequence (p : LPipe) (s : Seq) : Res (Seq × List Aligner × List Seq) := Pipe.runSteps p.steps s [] [s]

/-- `pipe.py:178-198` `transform`. -/
def transform (p : LPipe) (d : Datum) : Res Transformed := do
  let (utterance, intents, entities) ← unpackDatum d
  let (out, aligners, collection) ← p.transformSequence (.str utterance)
  let labels ← alignAll aligners entities
  return ⟨out, intents, labels, aligners, collection⟩

/-- `intermediate.py:27-41` `get_from_checkpoint`: `name in checkpoints`, `checkpoints[name]`, then an index into the
collection (which must be a number). -/
def get (checkpoints : PyVal) (collection : List Seq) (name : Str) : Res Seq := do
  let has ← checkpoints.has
  if has name = false then .error .keyError
  else do
    let v ← checkpoints.getItem name
    let i ← v.asInt
    match (pyIndex? collection.length i).bind fun j => collection[j]? with
    | some s => .ok s
    | none => .error .indexError

/-- `pipe.py:226-234` `serialize`. -/
def serialize (p : LPipe) : Str :=
  Json.dumps false (some 2) (.dict [("steps".toList, .list (p.steps.map fun op => .str op.serialize)),
    ("checkpoints".toList, p.checkpoints)])

/-- `pipe.py:236-253` `deserialize`. -/
def deserialize (f : Factory) (text : Str) : Res LPipe := do
  let bundle ← Json.loads text
  let steps ← bundle.getItem "steps".toList
  let infos ← Pipe.iterate steps
  let p ← Pipe.restoreSteps f infos Pipe.empty
  let cks ← bundle.getItem "checkpoints".toList
  return ⟨p.steps, cks⟩

/-- `pipe.py:151-154` `inverse_checkpoint`: the values become keys, so they must be hashable; `True` is the same key as
`1`. Values that are no numbers are never looked up and left out. -/
def inverseCheckpoint (p : LPipe) : Res (List (Int × Str)) := do
  let d ← p.checkpoints.items
  if d.all fun kv => kv.2.hashable then
    return dictUpdate [] (d.filterMap fun kv => kv.2.asInt?.map fun i => (i, kv.1))
  else .error .typeError

/-- `pipe.py:145-176` `summary`: the printed lines and the outcome. -/
def summary (p : LPipe) (r : Reprs) : List Str × Res Unit :=
  let head := [List.replicate 80 '_', "Type  Operator".toList, List.replicate 80 '=']
  let total := ["Total operators: ".toList ++ lengthStr p.steps.length]
  let body : Res (List Str) := if p.steps.isEmpty then .ok [] else do
    let inv ← p.inverseCheckpoint
    let i ← p.inputType
    let o ← p.outputType
    .ok ([i.name, " v".toList] ++ Pipe.summaryLoop r inv p.steps 1 i ++
      [" v".toList, List.replicate 80 '=', i.name ++ " -> ".toList ++ o.name])
  match body with
  | .error e => (head, .error e)
  | .ok body =>
    match p.checkpoints.len with
    | .error e => (head ++ body ++ total, .error e)
    | .ok n => (head ++ body ++ total ++ ["Total checkpoints: ".toList ++ lengthStr n, List.replicate 80 '_'], .ok ())

end LPipe

end Uttut
