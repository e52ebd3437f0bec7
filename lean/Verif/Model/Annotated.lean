import Verif.Model.History

/-!
Replacements with their annotations. `Model/Edit.lean` and `Model/History.lean` leave the annotation out.
-/

namespace Uttut

/-- `pipeline/edit/replacement.pyx:39-50` a `Replacement` with its annotation (any object; `None` if not given). -/
structure Noted (V A : Type) where
  rep : Rep V
  note : A
  deriving DecidableEq, Repr

/-- `pipeline/edit/replacement.pyx:75-79` a `ReplacementGroup` of replacements with annotations. -/
structure NotedGroup (V A : Type) where
  items : List (Noted V A)
  isDone : Bool
  deriving DecidableEq, Repr

/-- A call of a method of a `ReplacementGroup` that changes it. -/
inductive NotedCall (V A : Type)
  | add (start stop : Int) (v : V) (note : A)
  | done (σ : SetOrder) (skipSort : Bool)

namespace NotedGroup

variable {V A : Type}

/-- `pipeline/edit/replacement.pyx:77-79` `__cinit__`. -/
def empty : NotedGroup V A := ⟨[], false⟩

/-- `pipeline/edit/replacement.pyx:81-96` `add` called from Python; a ValueError of the constructor is swallowed. -/
def add (g : NotedGroup V A) (start stop : Int) (v : V) (note : A) : Res (NotedGroup V A) := do
  let s ← toUInt start
  let e ← toUInt stop
  match Rep.new s e v with
  | .ok r => return { g with items := g.items ++ [⟨r, note⟩] }
  | .error _ => return g

/-- `list(set(replacements))` (`pipeline/edit/replacement.pyx:102`): `__eq__` (`:52-56`) and `__hash__` (`:69-72`) do not look at
annotations, so the set keeps the first of equal replacements, and its order is an order of the replacements. -/
def setOf [DecidableEq V] (σ : SetOrder) (l : List (Noted V A)) : List (Noted V A) :=
  (σ.listSet (l.map Noted.rep)).filterMap fun r => l.find? fun x => x.rep = r

/-- `pipeline/edit/replacement.pyx:172-178` `_sort_replacements`. -/
def sort (l : List (Noted V A)) : List (Noted V A) :=
  pySorted (fun x => (x.rep.start : Int)) (pySorted (fun x => (x.rep.stop : Int)) l)

/-- `pipeline/edit/replacement.pyx:81-111` `add` and `done` as statements: the group afterwards and the exception, if any. -/
def call [DecidableEq V] [NewValue V] (g : NotedGroup V A) : NotedCall V A → NotedGroup V A × Option Exc
  | .add start stop v note =>
    match g.add start stop v note with
    | .ok g' => (g', none)
    | .error e => (g, some e)
  | .done σ skipSort =>
    let l := setOf σ g.items
    if l.length ≠ 0 ∧ skipSort = false then
      match ReplacementGroup.validateNewValues (l.map Noted.rep) with
      | .error e => (⟨l, g.isDone⟩, some e)
      | .ok () =>
        let sorted := sort l
        match ReplacementGroup.validateDisjoint (sorted.map fun x => (x.rep.start, x.rep.stop)) with
        | .error e => (⟨sorted, g.isDone⟩, some e)
        | .ok () => (⟨sorted, true⟩, none)
    else (⟨l, true⟩, none)

/-- The group after the calls, exceptions being caught by the caller. -/
def after [DecidableEq V] [NewValue V] (g : NotedGroup V A) (calls : List (NotedCall V A)) : NotedGroup V A :=
  calls.foldl (fun g c => (g.call c).1) g

/-- `pipeline/edit/replacement.pyx:153-156` `group[i].annotation` for an `i` that is not negative. -/
def noteAt (g : NotedGroup V A) (i : Nat) : Res A :=
  if g.isDone then
    match g.items[i]? with
    | some x => .ok x.note
    | none => .error .indexError
  else .error .runtimeError

end NotedGroup

/-- An element of the list given to `add_all`: a tuple of 3 or 4 elements, or a tuple of another length. -/
inductive RepTuple (V A : Type)
  | three (start stop : Int) (v : V)
  | four (start stop : Int) (v : V) (note : A)
  | other (length : Nat)

namespace NotedGroup

variable {V A : Type}

/-- `pipeline/edit/replacement.pyx:136-137`: the loop of `add_all`; `add(*replacement)` takes 3 or 4 arguments. -/
def addTuples (default : A) : List (RepTuple V A) → NotedGroup V A → Res (NotedGroup V A)
  | [], g => .ok g
  | .three start stop v :: ts, g => do
    let g ← g.add start stop v default
    addTuples default ts g
  | .four start stop v note :: ts, g => do
    let g ← g.add start stop v note
    addTuples default ts g
  | .other _ :: _, _ => .error .typeError

/-- `pipeline/edit/replacement.pyx:120-140` `add_all`; `default` is `None`. -/
def addAll [DecidableEq V] [NewValue V] (default : A) (σ : SetOrder) (ts : List (RepTuple V A)) : Res (NotedGroup V A) := do
  let g ← addTuples default ts empty
  match g.call (.done σ false) with
  | (g', none) => return g'
  | (_, some e) => .error e

end NotedGroup

end Uttut
