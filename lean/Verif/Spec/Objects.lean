import Verif.Model.Objects
import Verif.Spec.Data

/-!
Specification of sharing: which objects a datum consists of, which objects a command changes.
-/

namespace Uttut.Objects

/-- An object of a program, by class. -/
inductive Obj
  | intent (i : Ref)
  | entity (e : Ref)
  | intentList (l : Ref)
  | entityList (l : Ref)
  | datum (d : Ref)
  deriving DecidableEq, Repr

/-- The object exists. -/
def Present (s : Store) : Obj → Prop
  | .intent i => i < s.intents.length
  | .entity e => e < s.entities.length
  | .intentList l => l < s.intentLists.length
  | .entityList l => l < s.entityLists.length
  | .datum d => d < s.data.length

/-- The object is part of the datum `d`: the datum itself, one of its two lists, an element of one of them. -/
def PartOf (s : Store) (d : Ref) : Obj → Prop
  | .datum r => r = d ∧ d < s.data.length
  | .intentList l => ∃ o, s.data[d]? = some o ∧ o.intents = l
  | .entityList l => ∃ o, s.data[d]? = some o ∧ o.entities = l
  | .intent i => ∃ o l, s.data[d]? = some o ∧ s.intentLists[o.intents]? = some l ∧ i ∈ l
  | .entity e => ∃ o l, s.data[d]? = some o ∧ s.entityLists[o.entities]? = some l ∧ e ∈ l

/-- The two data have no object in common. -/
def Apart (s : Store) (d d' : Ref) : Prop := ∀ o, PartOf s d o → ¬ PartOf s d' o

/-- The object a command assigns to or changes in place, if any. -/
def target : Cmd → Option Obj
  | .setLabel i _ => some (.intent i)
  | .setEntity e _ => some (.entity e)
  | .setIntentList l _ => some (.intentList l)
  | .setEntityList l _ => some (.entityList l)
  | .setUtterance d _ => some (.datum d)
  | .setIntents d _ => some (.datum d)
  | .setEntities d _ => some (.datum d)
  | _ => none

/-- The content of an object: attributes and identities of the objects it refers to. -/
inductive Content
  | intent (i : Intent)
  | entity (e : Entity)
  | intentList (l : List Ref)
  | entityList (l : List Ref)
  | datum (d : DatumObj)

/-- The content of an object that exists. -/
def content (s : Store) : Obj → Option Content
  | .intent i => (s.intents[i]?).map .intent
  | .entity e => (s.entities[e]?).map .entity
  | .intentList l => (s.intentLists[l]?).map .intentList
  | .entityList l => (s.entityLists[l]?).map .entityList
  | .datum d => (s.data[d]?).map .datum

/-- The entity objects of a datum, in order. -/
def entityRefs (s : Store) (d : Ref) : List Ref :=
  match s.data[d]? with
  | none => []
  | some o => (s.entityLists[o.entities]?).getD []

/-- The intent objects of a datum, in order. -/
def intentRefs (s : Store) (d : Ref) : List Ref :=
  match s.data[d]? with
  | none => []
  | some o => (s.intentLists[o.intents]?).getD []

/-- What `Datum(...)` promises: every value is the text at its position, entities are in order and do not overlap,
intents are in order. -/
def Valid (d : Datum) : Prop :=
  (∀ e ∈ d.entities, Spec.ValueAt d.utterance e) ∧
    d.entities.Pairwise (fun a b => a.start ≤ b.start) ∧ Spec.Neighbours Spec.Before d.entities ∧
    d.intents.Pairwise (fun a b => a.hash ≤ b.hash)

/-- The identities in a list argument that may be `None`. -/
def given (lists : List (List Ref)) : Option Ref → Option (List Ref)
  | none => some []
  | some l => lists[l]?

/-- The objects with these identities have these contents. -/
def Holds {α : Type} (objs : List α) (refs : List Ref) (vals : List α) : Prop :=
  refs.map (fun r => objs[r]?) = vals.map some

instance {α : Type} [DecidableEq α] (objs : List α) (refs : List Ref) (vals : List α) :
    Decidable (Holds objs refs vals) := inferInstanceAs (Decidable (_ = _))

/-- The integers assigned are C `int`s. -/
def Fits : Attr → Prop
  | .label i => Spec.IsInt32 i
  | .start i => Spec.IsInt32 i
  | .stop i => Spec.IsInt32 i
  | _ => True

/-- Entity `y` is entity `x` after the assignment. -/
def Assigned (x y : Entity) : Attr → Prop
  | .label i => y = { x with label := i }
  | .value v => y = { x with value := v }
  | .start i => y = { x with start := i }
  | .stop i => y = { x with stop := i }
  | .replacements l => ∃ m : List Str, m.Nodup ∧ (∀ r, r ∈ m ↔ r ∈ l) ∧ y = { x with replacements := m }

/-- The objects `refs` have the contents `vals`, except that object `r` now has content `y`. -/
def replaced {α : Type} (refs : List Ref) (vals : List α) (r : Ref) (y : α) : List α :=
  (refs.zip vals).map fun p => if p.1 = r then y else p.2

end Uttut.Objects
