import Verif.Model.Elements
import Verif.Model.Operator

/-!
Model of `uttut/transformers/ordinal_label.py`.

Mappings are dicts from names to ints (association lists in insertion order). The raw dictionaries are
records of the keys the code reads.
-/

namespace Uttut

/-- `uttut/__init__.py:17` `NOT_ENTITY`. -/
def notEntityName : Str := "__NOT_ENTITY__".toList

/-- `transformers/ordinal_label.py:9-27` the attributes of an `OrdinalLabel`. -/
structure OrdinalLabel where
  intent2index : List (Str × Int)
  entity2index : List (Str × Int)
  notEntityIndex : Int
  deriving DecidableEq, Repr

/-- One entity of a raw dictionary; `none` = key missing. -/
structure RawEntity where
  name : Str
  start : Int
  stop : Int
  replacements : Option (List Str)
  deriving DecidableEq, Repr

/-- A raw dictionary `{'utterance': .., 'intent': {'names': ..}, 'entities': ..}`; `none` = key missing. -/
structure RawDatum where
  utterance : Str
  names : List Str
  entities : Option (List RawEntity)
  deriving DecidableEq, Repr

namespace OrdinalLabel

/-- `transformers/ordinal_label.py:29-32` `is_valid_mapping`. -/
def isValidMapping (m : List (Str × Int)) : Bool :=
  let idxs := pySorted (fun i => i) (m.map Prod.snd)
  decide (idxs = (List.range idxs.length).map (fun i : Nat => (i : Int)))

/-- `transformers/ordinal_label.py:12-27` `__init__`. -/
def new (intent2index entity2index : List (Str × Int)) (notEntityIndex : Int) : Res OrdinalLabel :=
  if isValidMapping intent2index then
    if isValidMapping (dictSet entity2index notEntityName notEntityIndex) then
      .ok ⟨intent2index, entity2index, notEntityIndex⟩
    else .error .valueError
  else .error .valueError

/-- The loop of `transformers/ordinal_label.py:38-43, 45-50`. -/
def findIndex : List (Str × Int) → Int → Res Str
  | [], _ => .error .keyError
  | (name, cur) :: m, idx => if idx = cur then .ok name else findIndex m idx

/-- `transformers/ordinal_label.py:38-43` `index2entity`. -/
def index2entity (t : OrdinalLabel) (idx : Int) : Res Str := findIndex t.entity2index idx

/-- `transformers/ordinal_label.py:45-50` `index2intent`. -/
def index2intent (t : OrdinalLabel) (idx : Int) : Res Str := findIndex t.intent2index idx

/-- `transformers/ordinal_label.py:61-69` one entity of `humanize`. -/
def humanizeEntity (σ : SetOrder) (t : OrdinalLabel) (e : Entity) : Res RawEntity := do
  let name ← t.index2entity e.label
  return ⟨name, e.start, e.stop,
    if e.noReplacements then none else some (σ.listSet e.replacements)⟩

/-- `transformers/ordinal_label.py:52-71` `humanize`. -/
def humanize (σ : SetOrder) (t : OrdinalLabel) (d : Datum) : Res RawDatum := do
  let names ← d.intents.mapM fun i => t.index2intent i.label
  if d.hasEntities then do
    let entities ← d.entities.mapM (t.humanizeEntity σ)
    return ⟨d.utterance, names, some entities⟩
  else return ⟨d.utterance, names, none⟩

/-- `self._intent2index[name]` / `self._entity2index[name]`. -/
def lookup (m : List (Str × Int)) (name : Str) : Res Int :=
  match dictGet m name with
  | some i => .ok i
  | none => .error .keyError

/-- `transformers/ordinal_label.py:79-90` one entity of `machanize`. -/
def machanizeEntity (t : OrdinalLabel) (utterance : Str) (r : RawEntity) : Res Entity := do
  let label ← lookup t.entity2index r.name
  Entity.new label (pySlice utterance r.start r.stop) r.start r.stop r.replacements

/-- `transformers/ordinal_label.py:73-92` `machanize`. -/
def machanize (t : OrdinalLabel) (r : RawDatum) : Res Datum := do
  let intents ← r.names.mapM fun name => do
    let i ← lookup t.intent2index name
    Intent.new i
  let entities ← (r.entities.getD []).mapM (t.machanizeEntity r.utterance)
  Datum.new r.utterance (some intents) (some entities)

/-- `transformers/ordinal_label.py:118-124` number the intents. -/
def numberIntents : List Str → (m : List (Str × Int)) → (idx : Int) → List (Str × Int)
  | [], m, _ => m
  | n :: ns, m, idx =>
    if (dictGet m n).isNone then numberIntents ns (dictSet m n idx) (idx + 1)
    else numberIntents ns m idx

/-- `transformers/ordinal_label.py:126-134` number the entities, skipping `not_entity_index`. -/
def numberEntities (notEntity : Int) : List Str → (m : List (Str × Int)) → (idx : Int) →
    List (Str × Int)
  | [], m, _ => m
  | n :: ns, m, idx =>
    if (dictGet m n).isNone then
      let idx := if idx = notEntity then idx + 1 else idx
      numberEntities notEntity ns (dictSet m n idx) (idx + 1)
    else numberEntities notEntity ns m idx

/-- `transformers/ordinal_label.py:110-136` `from_raw_dictionary` (for an int `not_entity_index`; other
types raise TypeError). -/
def fromRawDictionary (data : List RawDatum) (notEntityIndex : Int) : Res OrdinalLabel :=
  let intents := data.flatMap fun d => d.names
  let entities := data.flatMap fun d => (d.entities.getD []).map fun e => e.name
  new (numberIntents intents [] 0) (numberEntities notEntityIndex entities [] 0) notEntityIndex

/-- A mapping as a Python dict. -/
def mappingVal (m : List (Str × Int)) : PyVal := .dict (m.map fun kv => (kv.1, .int kv.2))

/-- `transformers/ordinal_label.py:95-99` the dict written by `serialize`. -/
def toDict (t : OrdinalLabel) : PyVal :=
  .dict [("intent2index".toList, mappingVal t.intent2index),
    ("entity2index".toList, mappingVal t.entity2index),
    ("not_entity_index".toList, .int t.notEntityIndex)]

/-- `transformers/ordinal_label.py:94-100` `serialize`. -/
def serialize (t : OrdinalLabel) : Str := Json.dumps true none t.toDict

/-- The int a loaded value equals: `True == 1` and `False == 0` in Python. -/
def number? : PyVal → Option Int
  | .int i => some i
  | .bool b => some (if b then 1 else 0)
  | _ => none

/-- The ints that the values of a loaded mapping equal. For other values `is_valid_mapping`
(`transformers/ordinal_label.py:30-32`) sorts them: one value alone and texts can be sorted and are no range
(ValueError), values of several kinds, `None` and dicts cannot be compared (TypeError). Simplification: several lists
raise TypeError here; in Python it is ValueError if they can be compared. -/
def numbers (vals : List PyVal) : Res (List Int) :=
  match vals.mapM number? with
  | some is => .ok is
  | none =>
    if vals.length < 2 ∨ vals.all (fun v => v matches .str _) = true then .error .valueError else .error .typeError

/-- The mapping with the ints its values equal. Simplification: `True` and `False` are kept as `1` and `0`, so they are
written as these by `serialize`. -/
def mappingOf (d : List (Str × PyVal)) : Res (List (Str × Int)) := do
  let is ← numbers (d.map Prod.snd)
  return (d.map Prod.fst).zip is

/-- `str2idx.values()` (`transformers/ordinal_label.py:31`) of a loaded value. -/
def valuesOf : PyVal → Res (List (Str × PyVal))
  | .dict d => .ok d
  | _ => .error .attributeError

/-- `{**entity2index, ..}` (`transformers/ordinal_label.py:24`) of a loaded value. -/
def unpackOf : PyVal → Res (List (Str × PyVal))
  | .dict d => .ok d
  | _ => .error .typeError

/-- `transformers/ordinal_label.py:102-108` `deserialize`, with the checks of `__init__` (lines 12-27) on loaded values in
their order. Simplification: a loaded entity mapping that itself has the key `__NOT_ENTITY__`, with a value that is
not an int, is refused here; Python does not look at this value. -/
def deserialize (text : Str) : Res OrdinalLabel := do
  let loaded ← Json.loads text
  let intents ← loaded.getItem "intent2index".toList
  let entities ← loaded.getItem "entity2index".toList
  let ne ← loaded.getItem "not_entity_index".toList
  let intents ← valuesOf intents
  let intent2index ← mappingOf intents
  if isValidMapping intent2index then do
    let entities ← unpackOf entities
    let _ ← mappingOf (dictSet entities notEntityName ne)
    let entity2index ← mappingOf entities
    match number? ne with
    | some i => new intent2index entity2index i
    | none => .error .typeError
  else .error .valueError

end OrdinalLabel

end Uttut
