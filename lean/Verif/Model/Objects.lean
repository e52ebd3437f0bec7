import Verif.Model.Elements

/-!
Objects and aliasing of data: what `uttut/elements.pyx`, `uttut/expand_by_entities.pyx` and
`uttut/pipeline/utils.py` do to objects that a program can reach along several ways. `Model/Elements.lean` models
the same functions on values; here entities, intents, lists and data are objects with an identity, and their public
attributes can be assigned after construction.
-/

namespace Uttut.Objects

/-- The identity of an object: its number among the objects of its class, in order of creation. -/
abbrev Ref := Nat

/-- `elements.pyx:110-114` a `Datum` object: its text and the identities of its two list objects. -/
structure DatumObj where
  utterance : Str
  intents : Ref
  entities : Ref
  deriving DecidableEq, Repr

/-- The mutable objects of a program using data. An `Entity` object owns its set `replacements` (`elements.pyx:41`
makes a new one); giving one set object to two entities by assignment is not modelled, it would be copied. -/
structure Store where
  intents : List Intent
  entities : List Entity
  /-- list objects, with the identities of the intents they hold -/
  intentLists : List (List Ref)
  /-- list objects, with the identities of the entities they hold -/
  entityLists : List (List Ref)
  data : List DatumObj
  deriving DecidableEq, Repr

/-- A name of the program that is bound to no object, for example because the constructor raised. -/
def bound {α : Type} : Option α → Res α
  | some a => .ok a
  | none => .error .nameError

namespace Store

/-- No objects. -/
def empty : Store := ⟨[], [], [], [], []⟩

/-- The objects with the given identities, each with its identity. -/
def deref {α : Type} (objs : List α) (refs : List Ref) : Option (List (Ref × α)) :=
  refs.mapM fun r => (objs[r]?).map fun a => (r, a)

/-- The current content of a datum object. -/
def datum (s : Store) (d : Ref) : Option Datum := do
  let o ← s.data[d]?
  let is ← deref s.intents (← s.intentLists[o.intents]?)
  let es ← deref s.entities (← s.entityLists[o.entities]?)
  return ⟨o.utterance, is.map Prod.snd, es.map Prod.snd⟩

/-- New `Intent` objects and a new list object holding them. -/
def addIntents (s : Store) (is : List Intent) : Store × Ref :=
  ({ s with intents := s.intents ++ is
            intentLists := s.intentLists ++ [List.range' s.intents.length is.length] }, s.intentLists.length)

/-- New `Entity` objects and a new list object holding them. -/
def addEntities (s : Store) (es : List Entity) : Store × Ref :=
  ({ s with entities := s.entities ++ es
            entityLists := s.entityLists ++ [List.range' s.entities.length es.length] }, s.entityLists.length)

/-- The elements of a list argument that may be `None`. -/
def elems {α : Type} (objs : List α) (lists : List (List Ref)) : Option Ref → Res (List (Ref × α))
  | none => .ok []
  | some l => do
    let refs ← bound lists[l]?
    bound (deref objs refs)

/-- `elements.pyx:116-136` `Datum(utterance, intents, entities)`: `sorted` makes new lists that hold the given
objects themselves (`:123-124`). The datum is an object once the checks have passed. -/
def newDatum (s : Store) (utterance : Str) (intents entities : Option Ref) : Res (Store × Ref) := do
  let is ← elems s.intents s.intentLists intents
  let es ← elems s.entities s.entityLists entities
  let is := pySorted (fun p => p.2.hash) is
  let es := pySorted (fun p => p.2.start) es
  checkPositions utterance (es.map Prod.snd)
  checkOverlaps (es.map Prod.snd)
  return ({ s with intentLists := s.intentLists ++ [is.map Prod.fst]
                   entityLists := s.entityLists ++ [es.map Prod.fst]
                   data := s.data ++ [⟨utterance, s.intentLists.length, s.entityLists.length⟩] }, s.data.length)

/-- `Datum(utterance, intents, entities)` for intents and entities created just before, and the lists holding them
(`expand_by_entities.pyx:62-70`, `pipeline/utils.py:31-48`). -/
def build (s : Store) (utterance : Str) (is : List Intent) (es : List Entity) : Res (Store × Ref) :=
  let (s, il) := s.addIntents is
  let (s, el) := s.addEntities es
  s.newDatum utterance (some il) (some el)

/-- `elements.pyx:179-180` `copy_intents`: new intents in a new list. -/
def copyIntents (s : Store) (d : Ref) : Res (Store × Ref) := do
  let d ← bound (s.datum d)
  let is ← d.intents.mapM fun i => Intent.new i.label
  return s.addIntents is

/-- `expand_by_entities.pyx:60-70` the loop over the sampled combinations. The given datum is not changed by the
loop, so its content is read once. -/
def expandLoop (d : Datum) (parts : List (List Str)) (labels : List (Option Int)) :
    Store → List Int → Res (Store × List Ref)
  | s, [] => .ok (s, [])
  | s, idx :: idxs => do
    let segments ← getKthCombination parts idx
    let entities ← aggregateEntities segments labels 0
    let intents ← d.copyIntents
    let (s, r) ← s.build segments.flatten intents entities
    let (s, rs) ← expandLoop d parts labels s idxs
    return (s, r :: rs)

/-- `expand_by_entities.pyx:41-71` `expand_by_entities`; without entities the given object itself is returned
(`:51-52`). -/
def expand (σ : SetOrder) (s : Store) (r : Ref) (sampling : Option (Nat → List Int)) (includeOrig : Bool) :
    Res (Store × List Ref) := do
  let d ← bound (s.datum r)
  if d.hasEntities = false then .ok (s, [r])
  else
    let method := sampling.getD fun n => (List.range n).map (fun i : Nat => (i : Int))
    let parts := partitionByEntities σ d includeOrig
    let nCombinations := (parts.1.map fun p => p.length).foldl (· * ·) 1
    expandLoop d parts.1 parts.2 s (method nCombinations)

/-- `pipeline/utils.py:25-48` `pack_to_datum`. -/
def pack (s : Store) (utterance : Str) (intentLabels entityLabels : List Int) : Res (Store × Ref) := do
  if utterance.length ≠ entityLabels.length then .error .valueError else do
  let intents ← (pySorted (fun i => i) (pyDedup intentLabels)).mapM Intent.new
  let starts ← getMeaningfulStartIndices entityLabels
  let ends ← getMeaningfulStartIndices entityLabels.reverse
  let entities ← packEntities utterance entityLabels (starts.zip ends.reverse)
  s.build utterance intents entities

end Store

/-- The assignments to attributes of an entity (`elements.pyx:19-23`). Adding to or removing from the set
`replacements` in place is the assignment of the resulting set. -/
inductive Attr
  | label (i : Int)
  | value (v : Str)
  | start (i : Int)
  | stop (i : Int)
  | replacements (l : List Str)

/-- The entity after an assignment; the integers are C `int`s. -/
def Attr.assign (e : Entity) : Attr → Res Entity
  | .label i => do return { e with label := ← toInt32 i }
  | .value v => .ok { e with value := v }
  | .start i => do return { e with start := ← toInt32 i }
  | .stop i => do return { e with stop := ← toInt32 i }
  | .replacements l => .ok { e with replacements := pyDedup l }

/-- What a program can do with data. -/
inductive Cmd
  /-- `Intent(label)` -/
  | intent (label : Int)
  /-- `Entity(label, value, start, end, replacements)` -/
  | entity (label : Int) (value : Str) (start stop : Int) (replacements : Option (List Str))
  /-- `[i1, ..., in]` for intents -/
  | intentList (refs : List Ref)
  /-- `[e1, ..., en]` for entities -/
  | entityList (refs : List Ref)
  /-- `Datum(utterance, intents, entities)` for two list objects or `None` -/
  | datum (utterance : Str) (intents entities : Option Ref)
  /-- `datum.copy_intents()` -/
  | copyIntents (d : Ref)
  /-- `expand_by_entities(datum, sampling, include_orig)` -/
  | expand (σ : SetOrder) (d : Ref) (sampling : Option (Nat → List Int)) (includeOrig : Bool)
  /-- `pack_to_datum(utterance, intent_labels, entity_labels)` -/
  | pack (utterance : Str) (intentLabels entityLabels : List Int)
  /-- `intent.label = label` -/
  | setLabel (i : Ref) (label : Int)
  /-- `entity.label = ...` and so on -/
  | setEntity (e : Ref) (a : Attr)
  /-- any change of a list object in place (`append`, `l[i] = x`, `sort`, ...), given by its new content -/
  | setIntentList (l : Ref) (refs : List Ref)
  /-- any change of a list object in place -/
  | setEntityList (l : Ref) (refs : List Ref)
  /-- `datum.utterance = u` -/
  | setUtterance (d : Ref) (u : Str)
  /-- `datum.intents = l` -/
  | setIntents (d l : Ref)
  /-- `datum.entities = l` -/
  | setEntities (d l : Ref)

namespace Store

/-- One command: the objects after it and the objects it returns. -/
def call (s : Store) : Cmd → Res (Store × List Ref)
  | .intent label => do
    let i ← Intent.new label
    return ({ s with intents := s.intents ++ [i] }, [s.intents.length])
  | .entity label value start stop replacements => do
    let e ← Entity.new label value start stop replacements
    return ({ s with entities := s.entities ++ [e] }, [s.entities.length])
  | .intentList refs => do
    let _ ← bound (deref s.intents refs)
    return ({ s with intentLists := s.intentLists ++ [refs] }, [s.intentLists.length])
  | .entityList refs => do
    let _ ← bound (deref s.entities refs)
    return ({ s with entityLists := s.entityLists ++ [refs] }, [s.entityLists.length])
  | .datum u is es => do
    let (s, r) ← s.newDatum u is es
    return (s, [r])
  | .copyIntents d => do
    let (s, r) ← s.copyIntents d
    return (s, [r])
  | .expand σ d sampling includeOrig => s.expand σ d sampling includeOrig
  | .pack u is es => do
    let (s, r) ← s.pack u is es
    return (s, [r])
  | .setLabel i label => do
    let _ ← bound s.intents[i]?
    let label ← toInt32 label
    return ({ s with intents := s.intents.set i ⟨label⟩ }, [])
  | .setEntity e a => do
    let old ← bound s.entities[e]?
    let new ← a.assign old
    return ({ s with entities := s.entities.set e new }, [])
  | .setIntentList l refs => do
    let _ ← bound s.intentLists[l]?
    let _ ← bound (deref s.intents refs)
    return ({ s with intentLists := s.intentLists.set l refs }, [])
  | .setEntityList l refs => do
    let _ ← bound s.entityLists[l]?
    let _ ← bound (deref s.entities refs)
    return ({ s with entityLists := s.entityLists.set l refs }, [])
  | .setUtterance d u => do
    let o ← bound s.data[d]?
    return ({ s with data := s.data.set d { o with utterance := u } }, [])
  | .setIntents d l => do
    let o ← bound s.data[d]?
    let _ ← bound s.intentLists[l]?
    return ({ s with data := s.data.set d { o with intents := l } }, [])
  | .setEntities d l => do
    let o ← bound s.data[d]?
    let _ ← bound s.entityLists[l]?
    return ({ s with data := s.data.set d { o with entities := l } }, [])

/-- The objects after one command. A command that raises leaves no new object that the program could name. -/
def step (s : Store) (c : Cmd) : Store :=
  match s.call c with
  | .ok (s', _) => s'
  | .error _ => s

/-- The objects after a list of commands. -/
def run (s : Store) (cmds : List Cmd) : Store := cmds.foldl step s

end Store

end Uttut.Objects
