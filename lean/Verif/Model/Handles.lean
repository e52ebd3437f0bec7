import Verif.Model.Pipe

/-!
What pipes and intermediates hand out: `len`, iteration, `in`, indices and slices, and the live list and dict behind
`pipe.steps` and `pipe.checkpoints` (`pipe.py:122-132`), which a program can change in place.
-/

namespace Uttut

/-- Python's iteration over an object with `__getitem__` but without `__iter__`: the items 0, 1, ... up to the first
IndexError; any other exception is passed on. -/
def iterItems {α : Type} (get : Int → Res α) : (fuel : Nat) → (i : Nat) → Res (List α)
  | 0, _ => .error .nonTermination
  | fuel + 1, i =>
    match get i with
    | .error .indexError => .ok []
    | .error e => .error e
    | .ok x => do
      let xs ← iterItems get fuel (i + 1)
      return x :: xs

namespace Pipe

/-- `pipe.py:122-124` `__len__`. -/
def len (p : Pipe) : Nat := p.steps.length

/-- `bool(pipe)`: there is no `__bool__`, so the length counts (`pipe.py:122-124`). -/
def truth (p : Pipe) : Bool := p.len != 0

/-- `list(pipe)` by `pipe.py:110-120` `__getitem__`. -/
def iter (p : Pipe) (fuel : Nat) : Res (List Op) := iterItems p.getStep fuel 0

/-- `op in pipe`: there is no `__contains__`, so the items are compared by `ops/base.py:143-144` `__eq__`. -/
def contains (p : Pipe) (fuel : Nat) (op : Op) : Res Bool := do
  let ops ← p.iter fuel
  return ops.any fun o => op.eq o

end Pipe

/-- `intermediate.py:14-16` an intermediate, with the checkpoint dict as it is now. -/
structure Inter where
  collection : List Seq
  checkpoints : List (Str × Int)

namespace Inter

/-- `intermediate.py:14-16` `__init__`. -/
def new (checkpoints : List (Str × Int)) : Inter := ⟨[], checkpoints⟩

/-- `intermediate.py:18-25` `add`. -/
def add (t : Inter) (s : Seq) : Inter := { t with collection := t.collection ++ [s] }

/-- `intermediate.py:43-57` `__getitem__` with an int. -/
def getItem (t : Inter) (i : Int) : Res Seq :=
  match (pyIndex? t.collection.length i).bind fun j => t.collection[j]? with
  | some s => .ok s
  | none => .error .indexError

/-- `intermediate.py:43-57` `__getitem__` with a slice: a new list. -/
def getSlice (t : Inter) (start stop step : Option Int) : Res (List Seq) := sliceStep t.collection start stop step

/-- `list(intermediate)`. -/
def iter (t : Inter) (fuel : Nat) : Res (List Seq) := iterItems t.getItem fuel 0

end Inter

/-- `pipe.py:258-269` `LabelAlignerSequence`: `__init__` makes an empty list, `add` appends. -/
def alignersAdd (as : List Aligner) (a : Aligner) : List Aligner := as ++ [a]

/-- `pipe.py:213-224` the loop of `transform_sequence`, with the objects it fills. -/
def fillLoop : List Op → Seq → List Aligner → Inter → Res (Seq × List Aligner × Inter)
  | [], s, as, t => .ok (s, as, t)
  | op :: ops, s, as, t => do
    let (s, a) ← op.transform s
    fillLoop ops s (alignersAdd as a) (t.add s)

/-- `pipe.py:200-224` `transform_sequence`, with the objects it fills. -/
def Pipe.fill (p : Pipe) (s : Seq) : Res (Seq × List Aligner × Inter) :=
  fillLoop p.steps s [] ((Inter.new p.checkpoints).add s)

/-- What a program can do with pipes when it also changes the list `pipe.steps` and the dict `pipe.checkpoints`. -/
inductive HandleCmd
  | call (c : Cmd)
  /-- the list `p.steps` is changed in place and now has the elements `ops` -/
  | editSteps (p : Nat) (ops : List Op)
  /-- the dict `p.checkpoints` is changed in place and now is `d` -/
  | editCheckpoints (p : Nat) (d : List (Str × Int))

namespace Heap

/-- `pipe.py:126-128` `steps` hands out the list itself. -/
def editSteps (h : Heap) (i : Nat) (ops : List Op) : Heap :=
  match h.pipes[i]? with
  | some (l, _) => { h with lists := h.lists.set l ops }
  | none => h

/-- `pipe.py:130-132` `checkpoints` hands out the dict itself. -/
def editCheckpoints (h : Heap) (i : Nat) (d : List (Str × Int)) : Heap :=
  match h.pipes[i]? with
  | some (_, r) => { h with dicts := h.dicts.set r d }
  | none => h

/-- The objects after one command. -/
def handleStep (h : Heap) : HandleCmd → Heap
  | .call c => h.step c
  | .editSteps i ops => h.editSteps i ops
  | .editCheckpoints i d => h.editCheckpoints i d

/-- The objects after a list of commands. -/
def handleRun (h : Heap) (cmds : List HandleCmd) : Heap := cmds.foldl handleStep h

/-- The `k`-th intermediate as it is now. -/
def inter? (h : Heap) (k : Nat) : Option Inter := do
  let (d, coll) ← h.inters[k]?
  let cks ← h.dicts[d]?
  return ⟨coll, cks⟩

end Heap

end Uttut
