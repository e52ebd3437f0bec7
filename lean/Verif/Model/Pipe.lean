import Verif.Model.Operator
import Verif.Model.Elements

/-!
Model of `uttut/pipeline/pipe.py` and `uttut/pipeline/intermediate.py`. Methods that change a pipe return the
pipe afterwards together with their outcome, because a call that raises can leave changes behind.
-/

namespace Uttut

/-- `pipe.py:23-25` a pipe: its steps and its checkpoint dict. -/
structure Pipe where
  steps : List Op
  checkpoints : List (Str × Int)

namespace Pipe

/-- `pipe.py:23-25` `Pipe()`. -/
def empty : Pipe := ⟨[], []⟩

/-- `pipe.py:133-137` `input_type`. -/
def inputType (p : Pipe) : Res SeqType :=
  match p.steps.head? with
  | none => .error .indexError
  | some op => .ok op.cls.inputType

/-- `pipe.py:139-143` `output_type`. -/
def outputType (p : Pipe) : Res SeqType :=
  match p.steps.getLast? with
  | none => .error .indexError
  | some op => .ok op.cls.outputType

/-- `pipe.py:72-77` the part of `add_op` after the type check: the step is appended before the checkpoint
name is checked. -/
def push (p : Pipe) (op : Op) (checkpoint : Option Str) : Pipe × Res Unit :=
  let steps := p.steps ++ [op]
  match checkpoint with
  | none => (⟨steps, p.checkpoints⟩, .ok ())
  | some name =>
    match dictGet p.checkpoints name with
    | some _ => (⟨steps, p.checkpoints⟩, .error .keyError)
    | none => (⟨steps, dictSet p.checkpoints name (steps.length : Int)⟩, .ok ())

/-- `pipe.py:52-77` `add_op`. -/
def addOp (p : Pipe) (op : Op) (checkpoint : Option Str) : Pipe × Res Unit :=
  match p.steps.getLast? with
  | none => p.push op checkpoint
  | some last =>
    if op.cls.inputType ≠ last.cls.outputType then (p, .error .typeError) else p.push op checkpoint

/-- `pipe.py:27-50` `add`. -/
def add (p : Pipe) (f : Factory) (name : Str) (kwargs : Option (List (Str × PyVal)))
    (checkpoint : Option Str) : Pipe × Res Unit :=
  match Op.fromDict f (.dict [("op_name".toList, .str name), ("op_kwargs".toList, .dict (kwargs.getD []))])
  with
  | .error e => (p, .error e)
  | .ok op => p.addOp op checkpoint

/-- `self.checkpoints.keys() & other.checkpoints.keys()` is non-empty. -/
def sharesName (p q : Pipe) : Bool :=
  p.checkpoints.any fun kv => (dictGet q.checkpoints kv.1).isSome

/-- `pipe.py:87-102` `__iadd__` (the new pipe after the call, and the outcome). -/
def iadd (p q : Pipe) : Pipe × Res Unit :=
  match p.outputType, q.inputType with
  | .error e, _ => (p, .error e)
  | _, .error e => (p, .error e)
  | .ok a, .ok b =>
    if a ≠ b then (p, .error .typeError)
    else if p.sharesName q then (p, .error .keyError)
    else
      let steps := p.steps ++ q.steps
      (⟨steps, dictUpdate p.checkpoints
        (q.checkpoints.map fun kv => (kv.1, kv.2 + (steps.length : Int)))⟩, .ok ())

/-- `pipe.py:82-85` `__add__`. -/
def concat (p q : Pipe) : Res Pipe :=
  match p.iadd q with
  | (r, .ok _) => .ok r
  | (_, .error e) => .error e

/-- `pipe.py:79-80` `__eq__`: equal step lists and equal checkpoint dicts. -/
def eq (p q : Pipe) : Bool :=
  p.steps.length == q.steps.length && (p.steps.zip q.steps).all (fun ab => ab.1.eq ab.2)
    && (p.checkpoints.length == q.checkpoints.length
      && p.checkpoints.all fun kv => dictGet q.checkpoints kv.1 == some kv.2)

end Pipe

/-- Bounds of a Python slice with positive step (`PySlice_AdjustIndices`). -/
def clampUp (n : Nat) (i : Int) : Int := if i < 0 then max (i + n) 0 else min i n

/-- Bounds of a Python slice with negative step. -/
def clampDown (n : Nat) (i : Int) : Int := if i < 0 then max (i + n) (-1) else min i (n - 1)

/-- A slice bound, or its default. -/
def sliceBound (clamp : Int → Int) (dflt : Int) : Option Int → Int
  | some i => clamp i
  | none => dflt

/-- The indices selected by the slice `[start:stop:step]` of a list of length `n`; `step ≠ 0`. -/
def sliceIndices (n : Nat) (start stop : Option Int) (step : Int) : List Nat :=
  if 0 < step then
    let a := sliceBound (clampUp n) 0 start
    let b := sliceBound (clampUp n) n stop
    let count := if a < b then ((b - a - 1) / step + 1).toNat else 0
    (List.range count).map fun k : Nat => (a + k * step).toNat
  else
    let a := sliceBound (clampDown n) ((n : Int) - 1) start
    let b := sliceBound (clampDown n) (-1) stop
    let count := if b < a then ((a - b - 1) / (-step) + 1).toNat else 0
    (List.range count).map fun k : Nat => (a + k * step).toNat

/-- Python slice `l[start:stop:step]`; a zero step raises ValueError. -/
def sliceStep {α : Type} (l : List α) (start stop step : Option Int) : Res (List α) :=
  match step with
  | some 0 => .error .valueError
  | _ => .ok ((sliceIndices l.length start stop (step.getD 1)).filterMap fun i => l[i]?)

namespace Pipe

/-- `pipe.py:114-117` the checkpoints of a slice: comparing with a missing start raises TypeError. -/
def sliceCheckpoints (start : Option Int) : List (Str × Int) → Res (List (Str × Int))
  | [] => .ok []
  | (name, i) :: rest =>
    match start with
    | none => .error .typeError
    | some a => do
      let tail ← sliceCheckpoints start rest
      return if i > a then (name, i - a) :: tail else tail

/-- `pipe.py:110-118` `__getitem__` with a slice. -/
def getSlice (p : Pipe) (start stop step : Option Int) : Res Pipe := do
  let steps ← sliceStep p.steps start stop step
  let checkpoints ← sliceCheckpoints start p.checkpoints
  return ⟨steps, checkpoints⟩

/-- `pipe.py:120` `__getitem__` with an index. -/
def getStep (p : Pipe) (i : Int) : Res Op :=
  match (pyIndex? p.steps.length i).bind fun j => p.steps[j]? with
  | some op => .ok op
  | none => .error .indexError

/-- `pipe.py:215-222` the loop of `transform_sequence`. -/
def runSteps : List Op → Seq → (aligners : List Aligner) → (collection : List Seq) →
    Res (Seq × List Aligner × List Seq)
  | [], s, as, coll => .ok (s, as, coll)
  | op :: ops, s, as, coll => do
    let (s, a) ← op.transform s
    runSteps ops s (as ++ [a]) (coll ++ [s])

/-- `pipe.py:200-224` `transform_sequence`: output, aligners and collected intermediates. -/
def transformSequence (p : Pipe) (s : Seq) : Res (Seq × List Aligner × List Seq) :=
  runSteps p.steps s [] [s]

end Pipe

/-- `pipe.py:271-284` `LabelAlignerSequence.transform`. -/
def alignAll : List Aligner → List Int → Res (List Int)
  | [], labels => .ok labels
  | a :: as, labels => do
    let labels ← a.transform labels
    alignAll as labels

/-- The loop of `pipe.py:296-298`, over the aligners already reversed. -/
def realignLoop : List Aligner → List Int → Res (List Int)
  | [], labels => .ok labels
  | a :: as, labels => do
    let labels ← a.inverseTransform labels
    realignLoop as labels

/-- `pipe.py:286-298` `LabelAlignerSequence.inverse_transform`. -/
def realignAll (as : List Aligner) (labels : List Int) : Res (List Int) := realignLoop as.reverse labels

/-- `intermediate.py:27-41` `get_from_checkpoint`, for the checkpoint dict as it is at the time of the
call. -/
def getFromCheckpoint (checkpoints : List (Str × Int)) (collection : List Seq) (name : Str) : Res Seq :=
  match dictGet checkpoints name with
  | none => .error .keyError
  | some i =>
    match (pyIndex? collection.length i).bind fun j => collection[j]? with
    | some s => .ok s
    | none => .error .indexError

/-- `pipe.py:178-198` result of `Pipe.transform`. -/
structure Transformed where
  output : Seq
  intentLabels : List Int
  entityLabels : List Int
  aligners : List Aligner
  collection : List Seq

namespace Pipe

/-- `pipe.py:178-198` `transform`. -/
def transform (p : Pipe) (d : Datum) : Res Transformed := do
  let (utterance, intents, entities) ← unpackDatum d
  let (out, aligners, collection) ← p.transformSequence (.str utterance)
  let labels ← alignAll aligners entities
  return ⟨out, intents, labels, aligners, collection⟩

/-- `pipe.py:228-231` the dict written by `serialize`. -/
def toDict (p : Pipe) : PyVal :=
  .dict [("steps".toList, .list (p.steps.map fun op => .str op.serialize)),
    ("checkpoints".toList, .dict (p.checkpoints.map fun kv => (kv.1, .int kv.2)))]

/-- `pipe.py:226-234` `serialize`. -/
def serialize (p : Pipe) : Str := Json.dumps false (some 2) p.toDict

/-- `for step_info in value`: lists yield their elements, strings their characters, dicts their keys. -/
def iterate : PyVal → Res (List PyVal)
  | .list l => .ok l
  | .tuple l => .ok l
  | .str s => .ok (s.map fun c => .str [c])
  | .dict d => .ok (d.map fun kv => .str kv.1)
  | _ => .error .typeError

/-- `pipe.py:242-249` one restored step. -/
def restoreStep (f : Factory) (info : PyVal) : Res Op :=
  match info with
  | .str text => Op.deserialize f text
  | .dict d => Op.fromDict f (.dict d)
  | _ => .error .typeError

/-- `pipe.py:241-249` the loop restoring the steps. -/
def restoreSteps (f : Factory) : List PyVal → Pipe → Res Pipe
  | [], p => .ok p
  | info :: infos, p => do
    let op ← restoreStep f info
    match p.addOp op none with
    | (p, .ok _) => restoreSteps f infos p
    | (_, .error e) => .error e

/-- The checkpoint dict of a bundle. The code stores the value unchecked; only dicts of ints are modelled
here, others are `typeError`; `Model/Loaded.lean` has all values. -/
def checkpointsOf : PyVal → Res (List (Str × Int))
  | .dict d => d.mapM fun kv =>
    match kv.2 with
    | .int i => .ok (kv.1, i)
    | _ => .error .typeError
  | _ => .error .typeError

/-- `pipe.py:236-253` `deserialize`. -/
def deserialize (f : Factory) (text : Str) : Res Pipe := do
  let bundle ← Json.loads text
  let steps ← bundle.getItem "steps".toList
  let infos ← iterate steps
  let p ← restoreSteps f infos empty
  let cks ← bundle.getItem "checkpoints".toList
  let cks ← checkpointsOf cks
  return ⟨p.steps, cks⟩

end Pipe

/-! ### Programs using pipes -/

/-- What a program can do with pipes; pipes are named by their position in the order of creation. -/
inductive Cmd
  /-- `Pipe()` -/
  | newPipe
  /-- `p.add_op(op, checkpoint)` -/
  | addOp (p : Nat) (op : Op) (checkpoint : Option Str)
  /-- `p.add(name, kwargs, checkpoint)` -/
  | add (p : Nat) (f : Factory) (name : Str) (kwargs : Option (List (Str × PyVal))) (checkpoint : Option Str)
  /-- `p += q` -/
  | iadd (p q : Nat)
  /-- `p + q` -/
  | concat (p q : Nat)
  /-- `copy.copy(p)` -/
  | copy (p : Nat)
  /-- `p[start:stop:step]` -/
  | slice (p : Nat) (start stop step : Option Int)
  /-- `Pipe.deserialize(text)` -/
  | deserialize (f : Factory) (text : Str)
  /-- `p.transform_sequence(s)` -/
  | transformSequence (p : Nat) (s : Seq)
  /-- `p.transform(datum)` -/
  | transform (p : Nat) (d : Datum)

/-! ### Objects and aliasing -/

/-- The mutable objects of a program using pipes. A pipe object holds references to a list object (`_steps`) and a
dict object (`_checkpoints`), `pipe.py:23-25`; an intermediate holds a reference to the checkpoint dict it was given
(`intermediate.py:15`) and its own collection, which nothing else refers to. Operators are never changed by any of
the methods, so they are values. -/
structure Heap where
  lists : List (List Op)
  dicts : List (List (Str × Int))
  /-- references to `_steps` and `_checkpoints` -/
  pipes : List (Nat × Nat)
  /-- reference to `_checkpoints`, and `_collection` -/
  inters : List (Nat × List Seq)

namespace Heap

/-- No objects. -/
def empty : Heap := ⟨[], [], [], []⟩

/-- The current content of a pipe object. -/
def read (h : Heap) (i : Nat) : Option Pipe := do
  let (l, d) ← h.pipes[i]?
  let steps ← h.lists[l]?
  let cks ← h.dicts[d]?
  return ⟨steps, cks⟩

/-- Change the list and the dict of a pipe object in place. -/
def write (h : Heap) (i : Nat) (p : Pipe) : Heap :=
  match h.pipes[i]? with
  | none => h
  | some (l, d) => { h with lists := h.lists.set l p.steps, dicts := h.dicts.set d p.checkpoints }

/-- A new pipe object with a new list object and a new dict object. -/
def alloc (h : Heap) (p : Pipe) : Heap :=
  { h with lists := h.lists ++ [p.steps], dicts := h.dicts ++ [p.checkpoints]
           pipes := h.pipes ++ [(h.lists.length, h.dicts.length)] }

/-- Drop the last pipe object from the names of the program (its list and dict remain as garbage). -/
def forget (h : Heap) : Heap := { h with pipes := h.pipes.dropLast }

/-- `pipe.py:87-102` `p += q`: appends to `_steps` in place (`:97`) and updates the dict in place (`:98`). -/
def iadd (h : Heap) (i j : Nat) : Heap × Res Unit :=
  match h.read i, h.read j with
  | some p, some q => (h.write i (p.iadd q).1, (p.iadd q).2)
  | _, _ => (h, .ok ())

/-- `pipe.py:104-108` `__copy__`: copies of list and dict. -/
def copy (h : Heap) (i : Nat) : Heap :=
  match h.read i with
  | some p => h.alloc ⟨p.steps, p.checkpoints⟩
  | none => h

/-- `pipe.py:213` `Intermediate(self.checkpoints)` receives the dict object of the pipe. -/
def record (h : Heap) (i : Nat) (coll : List Seq) : Heap :=
  match h.pipes[i]? with
  | some (_, d) => { h with inters := h.inters ++ [(d, coll)] }
  | none => h

/-- The objects after one command; a command that raises has the effect it had before raising, one that
names no pipe has none. -/
def step (h : Heap) : Cmd → Heap
  | .newPipe => h.alloc Pipe.empty
  | .addOp i op ck =>
    match h.read i with
    | some p => h.write i (p.addOp op ck).1
    | none => h
  | .add i f name kw ck =>
    match h.read i with
    | some p => h.write i (p.add f name kw ck).1
    | none => h
  | .iadd i j => (h.iadd i j).1
  | .concat i j =>
    match h.read i, h.read j with
    | some _, some _ =>
      match (h.copy i).iadd h.pipes.length j with
      | (h', .ok _) => h'
      | (h', .error _) => h'.forget
    | _, _ => h
  | .copy i => h.copy i
  | .slice i a b c =>
    match h.read i with
    | some p =>
      match p.getSlice a b c with
      | .ok r => h.alloc r
      | .error _ => h
    | none => h
  | .deserialize f text =>
    match Pipe.deserialize f text with
    | .ok p => h.alloc p
    | .error _ => h
  | .transformSequence i s =>
    match h.read i with
    | some p =>
      match p.transformSequence s with
      | .ok (_, _, coll) => h.record i coll
      | .error _ => h
    | none => h
  | .transform i d =>
    match h.read i with
    | some p =>
      match p.transform d with
      | .ok t => h.record i t.collection
      | .error _ => h
    | none => h

/-- The objects after a list of commands. -/
def run (h : Heap) (cmds : List Cmd) : Heap := cmds.foldl step h

/-- `inter.get_from_checkpoint(name)` for the `k`-th intermediate; `none` if there is no such object. -/
def get (h : Heap) (k : Nat) (name : Str) : Option (Res Seq) := do
  let (d, coll) ← h.inters[k]?
  let cks ← h.dicts[d]?
  return getFromCheckpoint cks coll name

end Heap

end Uttut
