import Verif.Model.Edit

/-!
Model of `uttut/elements.pyx`, `uttut/utils.py`, `uttut/pipeline/utils.py`,
`uttut/expand_by_entities.pyx`, `uttut/toolkits/*.pyx`, `uttut/entity_overlapping_ratio.py` and
`uttut/get_unique_entities.py`.

Objects are values here; identity and assignments after construction are in `Model/Objects.lean`. `None` in place of a `str`/`list` argument is modelled where the code gives it a meaning.
-/

namespace Uttut

/-- Conversion of a Python int to C `int` (32 bit) as generated by Cython; OverflowError outside. -/
def toInt32 (i : Int) : Res Int :=
  if -2147483648 ≤ i ∧ i < 2147483648 then .ok i else .error .overflowError

/-- `elements.pyx:17-41` `Entity`. The set `replacements` is the list of its distinct elements in order of
first insertion (its iteration order is a `SetOrder`). The field `index` (always -1, never read) is left
out. -/
structure Entity where
  label : Int
  value : Str
  start : Int
  stop : Int
  replacements : List Str
  deriving DecidableEq, Repr

/-- `elements.pyx:26-41` `Entity.__init__`; `label`, `start`, `end` are C `int`s. -/
def Entity.new (label : Int) (value : Str) (start stop : Int) (replacements : Option (List Str)) :
    Res Entity := do
  let label ← toInt32 label
  let start ← toInt32 start
  let stop ← toInt32 stop
  return ⟨label, value, start, stop, pyDedup (replacements.getD [])⟩

/-- Python `a == b` on sets. -/
def setEq {α : Type} [DecidableEq α] (a b : List α) : Bool :=
  a.all (fun x => decide (x ∈ b)) && b.all (fun x => decide (x ∈ a))

/-- `elements.pyx:43-52` `Entity.__eq__` (for two entities; other operands raise TypeError). -/
def Entity.eq (e f : Entity) : Bool :=
  let sameLabel := e.label == f.label
  let sameValue := e.value == f.value
  let samePosition := e.start == f.start && e.stop == f.stop
  let sameReplacements := setEq e.replacements f.replacements
  sameLabel && sameValue && samePosition && sameReplacements

/-- `elements.pyx:63-64` `no_replacements`. -/
def Entity.noReplacements (e : Entity) : Bool := e.replacements.length == 0

/-- `elements.pyx:66-67` `n_replacements`. -/
def Entity.nReplacements (e : Entity) : Nat := e.replacements.length + 1

/-- The dict produced by `Entity.to_dict`; `none` = key missing. -/
structure EntityDict where
  label : Int
  start : Int
  stop : Int
  replacements : Option (List Str)
  deriving DecidableEq, Repr

/-- `elements.pyx:69-77` `to_dict`. -/
def Entity.toDict (σ : SetOrder) (e : Entity) : EntityDict :=
  { label := e.label, start := e.start, stop := e.stop,
    replacements := if e.noReplacements then none else some (σ.listSet e.replacements) }

/-- `elements.pyx:79-90` `from_dict`. -/
def Entity.fromDict (d : EntityDict) (utterance : Str) : Res Entity :=
  let newEnd := d.stop
  let value := pySlice utterance d.start newEnd
  Entity.new d.label value d.start newEnd (some (d.replacements.getD []))

/-- `elements.pyx:93-107` `Intent`. -/
structure Intent where
  label : Int
  deriving DecidableEq, Repr

/-- `elements.pyx:97-98` `Intent.__init__`. -/
def Intent.new (label : Int) : Res Intent := do
  let label ← toInt32 label
  return ⟨label⟩

/-- `elements.pyx:103-104` `Intent.__hash__`: CPython's `hash` of a small int, which is the int itself
except that `hash(-1) == -2`. -/
def Intent.hash (i : Intent) : Int := if i.label = -1 then -2 else i.label

/-- `elements.pyx:110-114` `Datum`. -/
structure Datum where
  utterance : Str
  intents : List Intent
  entities : List Entity
  deriving DecidableEq, Repr

/-- `utils.py:1-6` `entity_position_correct`. -/
def entityPositionCorrect (utterance : Str) (e : Entity) : Bool :=
  if e.value = pySlice utterance e.start e.stop then true else false

/-- `utils.py:9-10` `overlap`. -/
def overlap (e next : Entity) : Bool := decide (e.stop > next.start)

/-- `elements.pyx:127-129` the position check. -/
def checkPositions (utterance : Str) : List Entity → Res Unit
  | [] => .ok ()
  | e :: es =>
    if entityPositionCorrect utterance e = false then .error .entityPositionError
    else checkPositions utterance es

/-- `elements.pyx:132-136` the overlap check. -/
def checkOverlaps : List Entity → Res Unit
  | [] => .ok ()
  | [_] => .ok ()
  | e :: f :: es => if overlap e f then .error .entityOverlapping else checkOverlaps (f :: es)

/-- `elements.pyx:116-136` `Datum.__init__`. -/
def Datum.new (utterance : Str) (intents : Option (List Intent)) (entities : Option (List Entity)) :
    Res Datum := do
  let is := match intents with
    | none => []
    | some is => pySorted Intent.hash is
  let es := match entities with
    | none => []
    | some es => pySorted Entity.start es
  checkPositions utterance es
  checkOverlaps es
  return ⟨utterance, is, es⟩

/-- `elements.pyx:157-158` `has_same_utterance_as`. -/
def Datum.hasSameUtteranceAs (d e : Datum) : Bool := d.utterance == e.utterance

/-- `elements.pyx:160-161` `has_same_intents_as`. -/
def Datum.hasSameIntentsAs (d e : Datum) : Bool := setEq d.intents e.intents

/-- `elements.pyx:163-171` `has_same_entities_as`. -/
def Datum.hasSameEntitiesAs (d e : Datum) : Bool :=
  if d.entities.length = e.entities.length then
    (d.entities.zip e.entities).all (fun p => p.1.eq p.2)
  else false

/-- `elements.pyx:138-149` `Datum.__eq__` (for two data; other operands raise TypeError). -/
def Datum.eq (d e : Datum) : Bool :=
  if d.hasSameUtteranceAs e = false then false
  else if d.hasSameIntentsAs e = false then false
  else if d.hasSameEntitiesAs e = false then false
  else true

/-- `elements.pyx:173-174` `has_entities`. -/
def Datum.hasEntities (d : Datum) : Bool := decide (d.entities.length > 0)

/-- `elements.pyx:179-180` `copy_intents`. -/
def Datum.copyIntents (d : Datum) : Res (List Intent) := d.intents.mapM (fun i => Intent.new i.label)

/-! ### `pipeline/utils.py` -/

/-- Python `labels[i] = label`. -/
def setLabel (labels : List Int) (i : Int) (label : Int) : Res (List Int) :=
  match pyIndex? labels.length i with
  | some j => .ok (labels.set j label)
  | none => .error .indexError

/-- `pipeline/utils.py:19-20` the inner loop; `n` iterations from `i` on. -/
def paint (label : Int) : (n : Nat) → (i : Int) → List Int → Res (List Int)
  | 0, _, labels => .ok labels
  | n + 1, i, labels => do
    let labels ← setLabel labels i label
    paint label n (i + 1) labels

/-- `pipeline/utils.py:17-20` the outer loop. -/
def paintAll : List Entity → List Int → Res (List Int)
  | [], labels => .ok labels
  | e :: es, labels => do
    let labels ← paint e.label (e.stop - e.start).toNat e.start labels
    paintAll es labels

/-- `pipeline/utils.py:7-22` `unpack_datum`. -/
def unpackDatum (d : Datum) : Res (Str × List Int × List Int) := do
  let intentLabels := d.intents.map (fun i => i.label)
  let entityLabels ← paintAll d.entities (List.replicate d.utterance.length 0)
  return (d.utterance, intentLabels, entityLabels)

/-- `pipeline/utils.py:61-69` the loop of `_get_start_indices`. -/
def startLoop : List Int → (i : Nat) → (current : Int) → (indices : List Nat) → List Nat
  | [], _, _, indices => indices
  | l :: ls, i, current, indices =>
    if l ≠ current then startLoop ls (i + 1) l (indices ++ [i])
    else startLoop ls (i + 1) current indices

/-- `pipeline/utils.py:61-69` `_get_start_indices` (its `print` is left out). -/
def getStartIndices (labels : List Int) : Res (List Nat) :=
  match labels with
  | [] => .error .indexError
  | l :: _ => .ok (startLoop labels 0 l [0])

/-- `pipeline/utils.py:53-57` the loop of `_get_meaningful_start_indices`: it iterates over `indices` by
position while overwriting its front. -/
def compactLoop (labels : List Int) : (n pos j : Nat) → (indices : List Nat) → Res (List Nat × Nat)
  | 0, _, j, indices => .ok (indices, j)
  | n + 1, pos, j, indices =>
    match indices[pos]? with
    | none => .ok (indices, j)
    | some ind =>
      match labels[ind]? with
      | none => .error .indexError
      | some l =>
        if l ≠ 0 then compactLoop labels n (pos + 1) (j + 1) (indices.set j ind)
        else compactLoop labels n (pos + 1) j indices

/-- `pipeline/utils.py:51-58` `_get_meaningful_start_indices`. -/
def getMeaningfulStartIndices (labels : List Int) : Res (List Nat) := do
  let indices ← getStartIndices labels
  let r ← compactLoop labels indices.length 0 0 indices
  return r.1.take r.2

/-- `pipeline/utils.py:37-45` the loop building the entities. -/
def packEntities (utterance : Str) (labels : List Int) : List (Nat × Nat) → Res (List Entity)
  | [] => .ok []
  | (start, fromEnd) :: ps => do
    let realEnd : Int := (utterance.length : Int) - fromEnd
    match labels[start]? with
    | none => .error .indexError
    | some l => do
      let e ← Entity.new l (pySlice utterance start realEnd) start realEnd none
      let es ← packEntities utterance labels ps
      return e :: es

/-- `pipeline/utils.py:25-48` `pack_to_datum`. -/
def packToDatum (utterance : Str) (intentLabels entityLabels : List Int) : Res Datum := do
  if utterance.length ≠ entityLabels.length then .error .valueError else do
  let intents ← (pySorted (fun i => i) (pyDedup intentLabels)).mapM Intent.new
  let starts ← getMeaningfulStartIndices entityLabels
  let ends ← getMeaningfulStartIndices entityLabels.reverse
  let entities ← packEntities utterance entityLabels (starts.zip ends.reverse)
  Datum.new utterance (some intents) (some entities)

/-! ### `toolkits` and `expand_by_entities.pyx` -/

/-- `toolkits/get_kth_combination.pyx:14-30` the loop; `k % len(iter_)` and `k // len(iter_)` are C
operations with Python semantics (Cython's default `cdivision=False`). The cast of the remainder to C
`int` is not modelled (it is exact for `k ≥ 0`, and for lists shorter than 2^31). -/
def kthLoop {α : Type} : List (List α) → (k : Int) → Res (List α)
  | [], _ => .ok []
  | l :: ls, k =>
    if l.length = 0 then .error .zeroDivisionError
    else
      match l[(k % (l.length : Int)).toNat]? with
      | none => .error .indexError
      | some x => do
        let xs ← kthLoop ls (k / (l.length : Int))
        return x :: xs

/-- `toolkits/get_kth_combination.pyx:4-30` `get_kth_combination`; `k` is a C `int`. -/
def getKthCombination {α : Type} (iterables : List (List α)) (k : Int) : Res (List α) := do
  let k ← toInt32 k
  kthLoop iterables k

/-- Python `a <= b` on strings: lexicographic by code point. -/
def strLe : Str → Str → Bool
  | [], _ => true
  | _ :: _, [] => false
  | a :: s, b :: t => if a.toNat < b.toNat then true else if b.toNat < a.toNat then false else strLe s t

/-- Insertion into a sorted list of strings. -/
def insertStr (x : Str) : List Str → List Str
  | [] => [x]
  | y :: ys => if strLe x y then x :: y :: ys else y :: insertStr x ys

/-- Python `sorted(l)` on a list of strings. -/
def sortStrs : List Str → List Str
  | [] => []
  | x :: xs => insertStr x (sortStrs xs)

/-- `toolkits/partition_by_entities.pyx:20-25` the candidates of one entity. -/
def partCandidates (σ : SetOrder) (includeOrig : Bool) (e : Entity) : List Str :=
  if e.noReplacements then [e.value]
  else
    let candidates := sortStrs (σ.listSet e.replacements)
    if includeOrig then candidates ++ [e.value] else candidates

/-- `toolkits/partition_by_entities.pyx:15-33` the loop; `start` is the end of the previous entity. -/
def partitionLoop (σ : SetOrder) (includeOrig : Bool) (utt : Str) :
    (start : Int) → List Entity → List (List Str) × List (Option Int)
  | start, [] =>
    if start ≠ utt.length then ([[pySlice utt start utt.length]], [none]) else ([], [])
  | start, e :: es =>
    let rest := partitionLoop σ includeOrig utt e.stop es
    let here := (partCandidates σ includeOrig e :: rest.1, some e.label :: rest.2)
    if start ≠ e.start then ([pySlice utt start e.start] :: here.1, none :: here.2) else here

/-- `toolkits/partition_by_entities.pyx:5-35` `partition_by_entities`. -/
def partitionByEntities (σ : SetOrder) (d : Datum) (includeOrig : Bool) :
    List (List Str) × List (Option Int) :=
  partitionLoop σ includeOrig d.utterance 0 d.entities

/-- `expand_by_entities.pyx:16-38` `_aggregate_entities`; `pointer` is a C `int`. -/
def aggregateEntities : List Str → List (Option Int) → (pointer : Int) → Res (List Entity)
  | [], _, _ => .ok []
  | _ :: _, [], _ => .ok []
  | seg :: segs, none :: labels, pointer => do
    let pointer ← toInt32 (pointer + seg.length)
    aggregateEntities segs labels pointer
  | seg :: segs, some label :: labels, pointer => do
    let e ← Entity.new label seg pointer (pointer + seg.length) none
    let pointer ← toInt32 (pointer + seg.length)
    let es ← aggregateEntities segs labels pointer
    return e :: es

/-- `expand_by_entities.pyx:60-70` one iteration of the loop. -/
def expandOne (d : Datum) (parts : List (List Str)) (labels : List (Option Int)) (idx : Int) :
    Res Datum := do
  let segments ← getKthCombination parts idx
  let utterance := segments.flatten
  let entities ← aggregateEntities segments labels 0
  let intents ← d.copyIntents
  Datum.new utterance (some intents) (some entities)

/-- `expand_by_entities.pyx:41-71` `expand_by_entities`; `sampling = none` is the default method (all
indices). A sampling method is a function of the number of combinations. -/
def expandByEntities (σ : SetOrder) (d : Datum) (sampling : Option (Nat → List Int))
    (includeOrig : Bool) : Res (List Datum) :=
  if d.hasEntities = false then .ok [d]
  else
    let method := sampling.getD fun n => (List.range n).map (fun i : Nat => (i : Int))
    let parts := partitionByEntities σ d includeOrig
    let nCombinations := (parts.1.map fun p => p.length).foldl (· * ·) 1
    (method nCombinations).mapM fun idx => expandOne d parts.1 parts.2 idx

/-! ### `entity_overlapping_ratio.py`, `get_unique_entities.py` -/

/-- `entity_overlapping_ratio.py:22-42` `expand_entity_to_list` with `check_utter_index_in_entity`
(`:8-19`) inlined: `n` is the number of remaining positions, `ind` the current one, the list the entities
not yet passed. -/
def entityListLoop : (fuel : Nat) → (len ind : Nat) → List Entity → Option (List Int)
  | 0, _, _, _ => none
  | fuel + 1, len, ind, es =>
    if ind ≥ len then some []
    else
      match es with
      | [] => (entityListLoop fuel len (ind + 1) []).map (0 :: ·)
      | e :: rest =>
        if (ind : Int) ≥ e.start ∧ (ind : Int) < e.stop then
          (entityListLoop fuel len (ind + 1) (e :: rest)).map (e.label :: ·)
        else if (ind : Int) ≥ e.stop then entityListLoop fuel len ind rest
        else (entityListLoop fuel len (ind + 1) (e :: rest)).map (0 :: ·)

/-- `entity_overlapping_ratio.py:22-42` `expand_entity_to_list`; every iteration advances the position or
the entity, so `len + entities + 1` iterations suffice (`entityListLoop_terminates`). -/
def expandEntityToList (d : Datum) : Option (List Int) :=
  entityListLoop (d.utterance.length + d.entities.length + 1) d.utterance.length 0 d.entities

/-- `entity_overlapping_ratio.py:45-56` `penalty_on_same_entity_or_not`; floats are rationals. -/
def penalty (ent1 ent2 : Int) (rate : Rat) : Rat :=
  if ent1 = ent2 then 0
  else if ent1 = 0 ∨ ent2 = 0 then 1
  else rate

/-- `entity_overlapping_ratio.py:59-78` `entity_overlapping_ratio`; floats are rationals (rounding is not
modelled). -/
def entityOverlappingRatio (d1 d2 : Datum) (rate : Rat) : Res Rat :=
  if d1.hasSameUtteranceAs d2 = false then .error .differentUtterance
  else
    match expandEntityToList d1, expandEntityToList d2 with
    | some l1, some l2 =>
      let total := (l1.zip l2).foldl (fun acc p => acc + penalty p.1 p.2 rate) 0
      if d1.utterance.length = 0 then .error .zeroDivisionError
      else .ok (1 - total / (d1.utterance.length : Rat))
    | _, _ => .error .nonTermination

/-- `get_unique_entities.py:6-15` `get_unique_entities`. -/
def getUniqueEntities (σ : SetOrder) (data : List Datum) : List Int :=
  σ.listSet (data.flatMap fun d => d.entities.map fun e => e.label)

end Uttut
