import Verif.Spec.Load
import Verif.Spec.Ordinal

/-! Specification vocabulary for C56: what a stored label transformer stands for. -/

namespace Uttut.Spec

/-- A JSON value that equals an int in Python. -/
inductive EqualsInt : PyVal → Int → Prop
  | int (i : Int) : EqualsInt (.int i) i
  | yes : EqualsInt (.bool true) 1
  | no : EqualsInt (.bool false) 0

/-- The same names in the same order, with the ints the values equal. -/
inductive Numbers : List (Str × PyVal) → List (Str × Int) → Prop
  | nil : Numbers [] []
  | cons {d : List (Str × PyVal)} {m : List (Str × Int)} (name : Str) {v : PyVal} {i : Int} (h : EqualsInt v i) (hs : Numbers d m) :
      Numbers ((name, v) :: d) ((name, i) :: m)

/-- The names other than the reserved `__NOT_ENTITY__`. -/
def unreserved {α : Type} (m : List (Str × α)) : List (Str × α) := m.eraseP fun kv => kv.1 = "__NOT_ENTITY__".toList

/-- The constructor accepts these mappings: the intents are numbered `0, .., n - 1`, and so are the entities together
with the `not_entity_index`. -/
def Accepted (t : OrdinalLabel) : Prop :=
  IsNumbering (t.intent2index.map Prod.snd) ∧
  IsNumbering (t.notEntityIndex :: (unreserved t.entity2index).map Prod.snd)

/-- `v` is an object that stores the transformer `t`. -/
def StoresLabels (v : PyVal) (t : OrdinalLabel) : Prop :=
  ∃ d e n, Entry v "intent2index" (.dict d) ∧ Entry v "entity2index" (.dict e) ∧ Entry v "not_entity_index" n ∧
    Numbers d t.intent2index ∧ Numbers e t.entity2index ∧ EqualsInt n t.notEntityIndex

/-- Values of one kind with an order: numbers, texts or lists. -/
def Sortable (v w : PyVal) : Prop :=
  (∃ i j, EqualsInt v i ∧ EqualsInt w j) ∨ (∃ s t, v = .str s ∧ w = .str t) ∨ ∃ l m, v = .list l ∧ w = .list m

/-- Two or more values, not all of one kind: Python's `sorted` cannot put them in order. -/
def Unsortable (vs : List PyVal) : Prop := 2 ≤ vs.length ∧ ∃ v ∈ vs, ∃ w ∈ vs, ¬ Sortable v w

/-- Values that `sorted` can put in order though they are no numbers: one value alone, or texts. -/
def SortableNoNumbers (vs : List PyVal) : Prop :=
  (∃ v, vs = [v] ∧ ∀ i, ¬ EqualsInt v i) ∨ vs ≠ [] ∧ ∀ v ∈ vs, ∃ s, v = .str s

end Uttut.Spec
