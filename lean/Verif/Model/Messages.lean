import Verif.Model.Summary
import Verif.Model.Ordinal

/-!
The texts of exceptions and the `repr`s of values: `uttut/utils.py:13-36`, the `raise` statements of `elements.pyx`,
`transformers/ordinal_label.py`, `pipeline/pipe.py`, `pipeline/intermediate.py`,
`pipeline/ops/factory.py`, `pipeline/edit/replacement.pyx`, `pipeline/edit/lst2str.py`, and `__repr__`/`__str__` of
`elements.pyx` and `replacement.pyx`. Each function ending in `M` repeats the function of the same name with the text
of the exception (`args[0]`) beside its class.
-/

namespace Uttut

/-- Result of a call: a value, or a raised exception with its text. -/
abbrev ResM (α : Type) := Except (Exc × Str) α

/-- `"{}".format(i)` and `f"{i}"` of an int: the same text as `int.__repr__`. -/
def fmtInt (i : Int) : Str := Json.intStr i

/-! ### `utils.py` and `elements.pyx` -/

/-- `utils.py:13-24` `msg_entity_wrong_position`. -/
def msgEntityWrongPosition (utterance : Str) (e : Entity) : Str :=
  "\n        Utterance position ".toList ++ fmtInt e.start ++ " - ".toList ++ fmtInt e.stop ++
    " expected to be ".toList ++ e.value ++ ",\n        but got ".toList ++ pySlice utterance e.start e.stop ++
    ".\n    ".toList

/-- `utils.py:27-37` `msg_entity_overlapping`. -/
def msgEntityOverlapping (utterance : Str) (e next : Entity) : Str :=
  "\n        For utterance ".toList ++ utterance ++ ", entity ".toList ++ e.value ++ " ends at ".toList ++
    fmtInt e.stop ++ ", and entity ".toList ++ next.value ++ " starts at ".toList ++ fmtInt next.start ++
    ",\n        which are overlapping. Currently, uttut doesn't support overlapping or hierachy entities.\n    ".toList

/-- `elements.pyx:127-129` the position check. -/
def checkPositionsM (utterance : Str) : List Entity → ResM Unit
  | [] => .ok ()
  | e :: es =>
    if entityPositionCorrect utterance e = false then
      .error (.entityPositionError, msgEntityWrongPosition utterance e)
    else checkPositionsM utterance es

/-- `elements.pyx:132-136` the overlap check. -/
def checkOverlapsM (utterance : Str) : List Entity → ResM Unit
  | [] => .ok ()
  | [_] => .ok ()
  | e :: f :: es =>
    if overlap e f then .error (.entityOverlapping, msgEntityOverlapping utterance e f)
    else checkOverlapsM utterance (f :: es)

/-- `elements.pyx:116-136` `Datum.__init__`. -/
def Datum.newM (utterance : Str) (intents : Option (List Intent)) (entities : Option (List Entity)) :
    ResM Datum := do
  let is := match intents with
    | none => []
    | some is => pySorted Intent.hash is
  let es := match entities with
    | none => []
    | some es => pySorted Entity.start es
  checkPositionsM utterance es
  checkOverlapsM utterance es
  return ⟨utterance, is, es⟩

/-- `elements.pyx:100-101` `Intent.__repr__`. -/
def Intent.repr (i : Intent) : Str := "<Intent ".toList ++ fmtInt i.label ++ ">".toList

/-- `elements.pyx:54-61` `Entity.__repr__` (for replacements that are strings). -/
def Entity.repr (σ : SetOrder) (e : Entity) : Str :=
  "<Entity ".toList ++ fmtInt e.label ++ ": ".toList ++ e.value ++ " at ".toList ++ fmtInt e.start ++ " - ".toList ++
    fmtInt e.stop ++ ", with replacements: ".toList ++ joinWith ", ".toList (σ.listSet e.replacements) ++ ">".toList

/-! ### `pipeline/edit` -/

/-- `type(v).__name__`; the names of types other than `str` and `list` are a parameter. -/
def PyKind.typeName (names : Nat → Str) : PyKind → Str
  | .str => "str".toList
  | .list => "list".toList
  | .other n => names n

namespace ReplacementGroup

variable {V : Type}

/-- `pipeline/edit/replacement.pyx:115-118` the loop over `enumerate(self._replacements)`, from `i` on. -/
def newValuesLoopM [NewValue V] (names : Nat → Str) (target : PyKind) : (i : Nat) → List (Rep V) → ResM Unit
  | _, [] => .ok ()
  | i, r :: rs =>
    if NewValue.kind r.val ≠ target then
      .error (.typeError, "the new_value of ".toList ++ fmtInt i ++ "-th element is not a(an) ".toList ++
        target.typeName names)
    else newValuesLoopM names target (i + 1) rs

/-- `pipeline/edit/replacement.pyx:113-118` `_validate_new_values`. -/
def validateNewValuesM [NewValue V] (names : Nat → Str) (reps : List (Rep V)) : ResM Unit :=
  match reps with
  | [] => .error (.indexError, "list index out of range".toList)
  | r :: _ => newValuesLoopM names (NewValue.kind r.val) 0 reps

end ReplacementGroup

/-- `pipeline/edit/replacement.pyx:52-56` `Replacement.__eq__` (the annotation is ignored). -/
def Rep.eq {V : Type} [DecidableEq V] (r other : Rep V) : Bool :=
  let sameStart := other.start == r.start
  let sameEnd := other.stop == r.stop
  let sameNewValues := other.val == r.val
  sameStart && sameEnd && sameNewValues

/-- `pipeline/edit/replacement.pyx:69-72` `Replacement.__hash__`: the hash of the tuple of the bounds (CPython's, a
parameter) cast to a C `int`; the generated code (`replacement.c:2404-2420`) turns -1 into -2. -/
def Rep.hash {V : Type} (tupleHash : Nat × Nat → Int) (r : Rep V) : Int :=
  let h := Int.bmod (tupleHash (r.start, r.stop)) (2 ^ 32)
  if h = -1 then -2 else h

/-- `pipeline/edit/replacement.pyx:58-61` `Replacement.__str__` (for a `new_value` that is a string). -/
def Rep.str (r : Rep Str) : Str :=
  "(".toList ++ fmtInt r.start ++ ", ".toList ++ fmtInt r.stop ++ ") => '".toList ++ r.val ++ "'".toList

/-- `pipeline/edit/span.pyx:105-108` `__getitem__` / iteration. -/
def SpanGroup.itemsM (g : SpanGroup) : ResM (List Span) :=
  if g.isDone then .ok g.spans else .error (.runtimeError, "Please call `done` first.".toList)

namespace Lst2Str

/-- `pipeline/edit/lst2str.py:19-21` the loop over `enumerate(zip(input_lst, span_group))`, from `i` on. -/
def compatLoopM : (i : Nat) → List Str → List Span → ResM Unit
  | i, t :: ts, s :: ss =>
    if (t.length : Int) ≠ (s.stop : Int) - s.start then
      .error (.valueError, fmtInt i ++ "-th element is not compatible.".toList)
    else compatLoopM (i + 1) ts ss
  | _, _, _ => .ok ()

/-- `pipeline/edit/lst2str.py:16-21` `_validate_compatibility`. -/
def validateCompatibilityM (l : List Str) (g : SpanGroup) : ResM Unit :=
  if l.length ≠ g.spans.length then
    .error (.valueError, "Input list and span group have different length.".toList)
  else do
    let spans ← (if l.isEmpty then .ok [] else g.itemsM)
    compatLoopM 0 l spans

/-- `pipeline/edit/lst2str.py:6-13` `apply`. -/
def applyM (l : List Str) (g : SpanGroup) : ResM Str := do
  validateCompatibilityM l g
  return l.flatten

end Lst2Str

/-! ### `transformers/ordinal_label.py` -/

namespace OrdinalLabel

/-- The loop of `transformers/ordinal_label.py:38-43, 45-50`; `what` is `Entity` or `Intent`. -/
def findIndexM (what : Str) : List (Str × Int) → Int → ResM Str
  | [], idx => .error (.keyError, what ++ " index ".toList ++ fmtInt idx ++ " not found".toList)
  | (name, cur) :: m, idx => if idx = cur then .ok name else findIndexM what m idx

/-- `transformers/ordinal_label.py:38-43` `index2entity`. -/
def index2entityM (t : OrdinalLabel) (idx : Int) : ResM Str := findIndexM "Entity".toList t.entity2index idx

/-- `transformers/ordinal_label.py:45-50` `index2intent`. -/
def index2intentM (t : OrdinalLabel) (idx : Int) : ResM Str := findIndexM "Intent".toList t.intent2index idx

/-- `transformers/ordinal_label.py:61-69` one entity of `humanize`. -/
def humanizeEntityM (σ : SetOrder) (t : OrdinalLabel) (e : Entity) : ResM RawEntity := do
  let name ← t.index2entityM e.label
  return ⟨name, e.start, e.stop, if e.noReplacements then none else some (σ.listSet e.replacements)⟩

/-- `transformers/ordinal_label.py:52-71` `humanize`. -/
def humanizeM (σ : SetOrder) (t : OrdinalLabel) (d : Datum) : ResM RawDatum := do
  let names ← d.intents.mapM fun i => t.index2intentM i.label
  if d.hasEntities then do
    let entities ← d.entities.mapM (t.humanizeEntityM σ)
    return ⟨d.utterance, names, some entities⟩
  else return ⟨d.utterance, names, none⟩

end OrdinalLabel

/-! ### `pipeline/pipe.py`, `pipeline/intermediate.py`, `pipeline/ops/factory.py` -/

/-- `f"{t}"` of the types `str` and `list`. -/
def SeqType.shown (t : SeqType) : Str := "<class '".toList ++ t.name ++ "'>".toList

namespace Pipe

/-- `pipe.py:72-77` the part of `add_op` after the type check. -/
def pushM (p : Pipe) (op : Op) (checkpoint : Option Str) : Pipe × ResM Unit :=
  let steps := p.steps ++ [op]
  match checkpoint with
  | none => (⟨steps, p.checkpoints⟩, .ok ())
  | some name =>
    match dictGet p.checkpoints name with
    | some _ => (⟨steps, p.checkpoints⟩, .error (.keyError, "duplicated checkpoints: ".toList ++ name))
    | none => (⟨steps, dictSet p.checkpoints name (steps.length : Int)⟩, .ok ())

/-- `pipe.py:52-77` `add_op`. -/
def addOpM (p : Pipe) (op : Op) (checkpoint : Option Str) : Pipe × ResM Unit :=
  match p.steps.getLast? with
  | none => p.pushM op checkpoint
  | some last =>
    if op.cls.inputType ≠ last.cls.outputType then
      (p, .error (.typeError, "InputType of the step op is not valid.Got ".toList ++ op.cls.inputType.shown ++
        ", but requires ".toList ++ last.cls.outputType.shown))
    else p.pushM op checkpoint

end Pipe

/-- `intermediate.py:27-41` `get_from_checkpoint`. -/
def getFromCheckpointM (checkpoints : List (Str × Int)) (collection : List Seq) (name : Str) : ResM Seq :=
  match dictGet checkpoints name with
  | none => .error (.keyError, name ++ " is not found.".toList)
  | some i =>
    match (pyIndex? collection.length i).bind fun j => collection[j]? with
    | some s => .ok s
    | none => .error (.indexError, "list index out of range".toList)

/-- `factory.py:6-20` `register`. -/
def Factory.registerM (f : Factory) (name : Str) (c : OpClass) : Factory × ResM Unit :=
  match dictGet f name with
  | none => (dictSet f name c, .ok ())
  | some _ => (f, .error (.keyError, name ++ " already exists.".toList))

/-- `factory.py:22-25` `__getitem__`. -/
def Factory.getM (f : Factory) (name : Str) : ResM OpClass :=
  match dictGet f name with
  | some c => .ok c
  | none => .error (.keyError, name ++ " is not registered".toList)

end Uttut
